import Mathlib.Algebra.Field.Rat
import Verif.Lemmas.StorageFiles
import Verif.Props.Storage
/-!
Property theorems about whole neutron files: C05, C06, C07, C08, C12, C56, C57.
-/

namespace Verif.Storage
open Verif.Spec

/-- **C05** Merging existing files into a new one concatenates their contents in
order; no other file changes. -/
theorem C05_merge_concat {α} (bufsize : Nat) (fs : FS α) (paths : List String) (newpath : String)
    (hne : paths ≠ []) (hall : ∀ p ∈ paths, (fs p).isSome) (hnew : fs newpath = none) :
    merge bufsize fs paths newpath =
      (.ok (), fs.set newpath (some (paths.flatMap fun p => (fs p).getD []))) := by
  have hnotin : ∀ p ∈ paths, p ≠ newpath := by
    intro p hp he
    have := hall p hp
    rw [he, hnew] at this; simp at this
  have hall1 : ∀ p ∈ paths, ((fs.set newpath (some [])) p).isSome := by
    intro p hp; rw [FS.set_other _ _ _ _ (hnotin p hp)]; exact hall p hp
  obtain ⟨out, e, hr, hc, ha⟩ := mergeLoop_ok (fs.set newpath (some [])) paths (openWrite bufsize []) rfl rfl hall1
  obtain ⟨w, ew, hd, -⟩ := close_ok out hr hc
  have hcontent : w.disk = paths.flatMap fun p => (fs p).getD [] := by
    rw [hd, ha]
    simp only [Writer.all, openWrite, List.append_nil, List.nil_append, List.flatMap_def]
    congr 1
    apply List.map_congr_left
    intro p hp
    rw [FS.set_other _ _ _ _ (hnotin p hp)]
  have hlen : ¬ (paths.length = 0) := by
    intro h; exact hne (List.length_eq_zero_iff.mp h)
  simp only [merge, if_neg hlen, hnew, Option.isSome_none, Bool.false_eq_true, if_false, e, ew, FS.set_set,
    hcontent]

/-- a small file map used in the examples -/
def exFS : FS Nat := fun p => if p = "a" then some [1, 2] else if p = "b" then some [] else
  if p = "c" then some [3] else none

example : (merge 2 exFS ["a", "b", "c", "a"] "out").2 "out" = some [1, 2, 3, 1, 2] := by
  rw [C05_merge_concat 2 exFS ["a", "b", "c", "a"] "out" (by simp) (by decide) rfl]; rfl

/-- **C05** No inputs, or an output that exists: refused, and no file changes. -/
theorem C05_merge_refuses {α} (bufsize : Nat) (fs : FS α) (paths : List String) (newpath : String)
    (h : paths = [] ∨ (fs newpath).isSome) :
    (∃ e, (merge bufsize fs paths newpath).1 = .error e) ∧ (merge bufsize fs paths newpath).2 = fs := by
  by_cases h0 : paths.length = 0
  · simp [merge, h0]
  · rcases h with h | h
    · subst h; simp at h0
    · simp [merge, h0, h]

example : (merge 2 exFS ["a"] "b").1 = .error .runtimeError := rfl

/-- **C05** A missing input is reported. -/
theorem C05_merge_missing {α} (bufsize : Nat) (fs : FS α) (paths : List String) (newpath : String)
    (q : String) (hq : q ∈ paths) (hmiss : fs q = none) (hnq : q ≠ newpath) :
    ∃ e, (merge bufsize fs paths newpath).1 = .error e := by
  by_cases h0 : paths.length = 0
  · simp [merge, h0]
  · by_cases h1 : (fs newpath).isSome
    · simp [merge, h0, h1]
    · have key : ∀ (ps : List String) (out : Writer α), q ∈ ps → ∃ e,
          (mergeLoop (fs.set newpath (some [])) ps out).2 = some e := by
        intro ps
        induction ps with
        | nil => intro out h; simp at h
        | cons p ps ih =>
          intro out h
          simp only [mergeLoop]
          split
          · exact ⟨_, rfl⟩
          · rename_i file hf
            have hqp : q ∈ ps := by
              rcases List.mem_cons.mp h with rfl | h
              · rw [FS.set_other _ _ _ _ hnq, hmiss] at hf; cases hf
              · exact h
            split
            · exact ⟨_, rfl⟩
            · exact ih _ hqp
            · split
              · exact ih _ hqp
              · split
                · exact ⟨_, rfl⟩
                · exact ih _ hqp
      obtain ⟨e, he⟩ := key paths (openWrite bufsize []) hq
      refine ⟨e, ?_⟩
      simp [merge, h0, h1, he]

example : ∃ e, (merge 2 exFS ["a", "nope"] "out").1 = .error e :=
  C05_merge_missing 2 exFS ["a", "nope"] "out" "nope" (by simp) rfl (by decide)

/-- **C06** Normalizing a neutron file in place: same number and order of
neutrons, every probability divided by `N`, every other column untouched, no
other file changed, for every chunk size. -/
theorem C06_normalize {F} [Field F] (N : F) (bufsize chunk : Nat) (hchunk : 0 < chunk)
    (fs : FS (Neutron F)) (file tmp : String) (content : List (Neutron F))
    (hfile : fs file = some content) (htmp : fs tmp = none) :
    ∃ fs', normalize (scaleRow N) bufsize chunk fs file tmp = .ok fs' ∧
      (∃ new, fs' file = some new ∧ new.length = content.length ∧
        ∀ (i : Nat) (r : Neutron F), content[i]? = some r → ∃ r' : Neutron F, new[i]? = some r' ∧ r'.p = r.p / N ∧
          r'.x = r.x ∧ r'.y = r.y ∧ r'.z = r.z ∧ r'.vx = r.vx ∧ r'.vy = r.vy ∧ r'.vz = r.vz ∧
          r'.s1 = r.s1 ∧ r'.s2 = r.s2 ∧ r'.t = r.t) ∧
      ∀ q, q ≠ file → fs' q = fs q := by
  have hft : file ≠ tmp := by intro h; rw [h, htmp] at hfile; cases hfile
  obtain ⟨out, e, hr, hc, ha⟩ := normalizeLoop_ok (scaleRow N) chunk hchunk content.length
    (openRead content) (openWrite bufsize []) (by intro _; simp [openRead]) (by simp [openRead]) rfl rfl
  obtain ⟨w, ew, hd, -⟩ := close_ok out hr hc
  have hdisk : w.disk = content.map (scaleRow N) := by
    rw [hd, ha]; simp [Writer.all, openWrite, openRead]
  refine ⟨((fs.set tmp (some w.disk)).set file (some w.disk)).set tmp none, ?_, ?_, ?_⟩
  · simp [normalize, normalizeTo, hft, htmp, hfile, e, ew, FS.set_same]
  · refine ⟨w.disk, ?_, by simp [hdisk], ?_⟩
    · rw [FS.set_other _ _ _ _ hft, FS.set_same]
    · intro i r hi
      refine ⟨scaleRow N r, ?_, ?_⟩
      · simp [hdisk, hi]
      · simp [scaleRow]
  · intro q hq
    by_cases hqt : q = tmp
    · subst hqt; rw [FS.set_same, htmp]
    · rw [FS.set_other _ _ _ _ hqt, FS.set_other _ _ _ _ hq, FS.set_other _ _ _ _ hqt]

example : ∃ fs', normalize (scaleRow (2 : ℚ)) 3 2
    (fun p => if p = "n" then some [⟨1,2,3,4,5,6,7,8,9,10⟩, ⟨1,1,1,1,1,1,1,1,1,4⟩, ⟨0,0,0,0,0,0,0,0,0,1⟩] else none)
    "n" "tmp" = .ok fs' :=
  (C06_normalize (2 : ℚ) 3 2 (by decide) _ "n" "tmp" _ rfl rfl).imp fun _ h => h.1

/-- **C06** The outcome (also of the refused cases) does not depend on the chunk
size or the buffer size. -/
theorem C06_chunk_independent {α} (f : α → α) (b1 b2 c1 c2 : Nat) (h1 : 0 < c1) (h2 : 0 < c2)
    (fs : FS α) (file tmp : String) :
    normalize f b1 c1 fs file tmp = normalize f b2 c2 fs file tmp := by
  have key : ∀ (b c : Nat), 0 < c → ∀ content : List α, ∃ out w,
      normalizeLoop f c content.length (openRead content) (openWrite b []) = .ok out ∧
      close out = .ok w ∧ w.disk = content.map f := by
    intro b c hc content
    obtain ⟨out, e, hr, hcl, ha⟩ := normalizeLoop_ok f c hc content.length
      (openRead content) (openWrite b []) (by intro _; simp [openRead]) (by simp [openRead]) rfl rfl
    obtain ⟨w, ew, hd, -⟩ := close_ok out hr hcl
    exact ⟨out, w, e, ew, by rw [hd, ha]; simp [Writer.all, openWrite, openRead]⟩
  by_cases hft : file = tmp
  · simp [normalize, normalizeTo, hft]
  · by_cases ht : (fs tmp).isSome
    · simp [normalize, normalizeTo, hft, ht]
    · cases hfile : fs file with
      | none => simp [normalize, normalizeTo, hft, ht, hfile]
      | some content =>
        obtain ⟨o1, w1, e1, ew1, d1⟩ := key b1 c1 h1 content
        obtain ⟨o2, w2, e2, ew2, d2⟩ := key b2 c2 h2 content
        simp [normalize, normalizeTo, hft, ht, hfile, e1, e2, ew1, ew2, d1, d2]

example : (normalize (· + 1) 5 1 exFS "a" "t").toOption.bind (fun fs => fs "a") = some [2, 3] := by
  rw [C06_chunk_independent (· + 1) 5 1 1 2 (by decide) (by decide)]
  simp [normalize, normalizeTo, exFS, normalizeLoop, read, orDefault, openRead, idfRead, readWrap, write, dump,
    writeNeutrons, openWrite, close, flush, drain, FS.set, bind, Except.bind, pure, Except.pure, Except.toOption]

/-- **C07** Wherever the process dies during `normalize(file, N)`, the file holds
its complete old content or its complete new content. -/
theorem C07_normalize_crash_safe {α} (fs fs' : FS α) (file tmp : String) (old : List α)
    (batches : List (List α)) (hfile : fs file = some old) (htmp : fs tmp = none)
    (h : Crash fs (normalizeOps file tmp batches) fs') :
    fs' file = some old ∨ fs' file = some batches.flatten := by
  have hft : tmp ≠ file := by intro he; rw [he, hfile] at htmp; cases htmp
  have huntouched : ∀ op ∈ ([.create tmp, .remove tmp, .create tmp] ++ batches.map (.append tmp) : List (FsOp α)),
      (match op with
        | .create p => p ≠ file | .append p _ => p ≠ file | .remove p => p ≠ file
        | .rename a b => a ≠ file ∧ b ≠ file) := by
    intro op hop
    simp only [List.mem_append, List.mem_cons, List.not_mem_nil, or_false, List.mem_map] at hop
    rcases hop with (rfl | rfl | rfl) | ⟨b, -, rfl⟩ <;> exact hft
  rcases crash_append _ _ _ _ h with h | h
  · exact Or.inl (crash_untouched file _ _ fs fs' hfile huntouched (Or.inl h))
  · have hold := crash_untouched file (some old) _ fs _ hfile huntouched (Or.inr rfl)
    have htmpc : (runOps fs ([.create tmp, .remove tmp, .create tmp] ++ batches.map (.append tmp))) tmp =
        some batches.flatten := by
      rw [runOps_append]
      rw [runOps_appends tmp batches _ [] (by simp [runOps, FsOp.apply, FS.set])]
      simp
    have hafter : (FsOp.apply (runOps fs ([.create tmp, .remove tmp, .create tmp] ++ batches.map (.append tmp)))
        (.rename tmp file)) file = some batches.flatten := by
      simp only [FsOp.apply]
      rw [FS.set_other _ _ _ _ (Ne.symm hft), FS.set_same, htmpc]
    cases h with
    | torn ht =>
      cases ht with
      | before => exact Or.inl hold
      | after => exact Or.inr hafter
    | later hl => cases hl; exact Or.inr hafter

example : Crash exFS (normalizeOps "a" "tmp" [[5], [6]])
    (FsOp.apply (FsOp.apply exFS (.create "tmp")) (.remove "tmp")) :=
  .later (.torn (.after _))

/-- **C07** The file system calls without a crash have the effect of the
functional model of `normalize` (so the crash theorem is about the same code). -/
theorem C07_trace_matches_model {α} (f : α → α) (bufsize chunk : Nat) (hchunk : 0 < chunk) (fs : FS α)
    (file tmp : String) (content : List α) (hfile : fs file = some content) (htmp : fs tmp = none)
    (batches : List (List α)) (hb : batches.flatten = content.map f) :
    normalize f bufsize chunk fs file tmp = .ok (runOps fs (normalizeOps file tmp batches)) := by
  have hft : file ≠ tmp := by intro h; rw [h, htmp] at hfile; cases hfile
  obtain ⟨out, e, hr, hc, ha⟩ := normalizeLoop_ok f chunk hchunk content.length
    (openRead content) (openWrite bufsize []) (by intro _; simp [openRead]) (by simp [openRead]) rfl rfl
  obtain ⟨w, ew, hd, -⟩ := close_ok out hr hc
  have hdisk : w.disk = content.map f := by
    rw [hd, ha]; simp [Writer.all, openWrite, openRead]
  have happ : ∀ (bs : List (List α)) (g : FS α) (c : List α), g tmp = some c →
      runOps g (bs.map (.append tmp)) = g.set tmp (some (c ++ bs.flatten)) := by
    intro bs
    induction bs with
    | nil => intro g c hg; funext q; simp only [runOps, FS.set]; by_cases hq : q = tmp <;> simp [hq, hg]
    | cons b bs ih =>
      intro g c hg
      have := ih (FsOp.apply g (.append tmp b)) (c ++ b) (by simp [FsOp.apply, FS.set, hg])
      simp only [List.map_cons, runOps, List.foldl_cons] at this ⊢
      rw [this]
      simp [FsOp.apply, FS.set_set]
  have h1 : runOps fs (normalizeOps file tmp batches) =
      ((fs.set tmp (some (content.map f))).set file (some (content.map f))).set tmp none := by
    simp only [normalizeOps]
    rw [runOps_append, runOps_append, happ batches _ []]
    · simp only [runOps, List.foldl_cons, List.foldl_nil, FsOp.apply, FS.set_set, FS.set_same,
        List.nil_append, hb]
    · simp [runOps, FsOp.apply, FS.set]
  rw [h1]
  simp [normalize, normalizeTo, hft, htmp, hfile, e, ew, hdisk, FS.set_same]

example : normalize (· + 1) 5 1 exFS "a" "t" = .ok (runOps exFS (normalizeOps "a" "t" [[2], [3]])) :=
  C07_trace_matches_model (· + 1) 5 1 (by decide) exFS "a" "t" [1, 2] rfl rfl [[2], [3]] rfl

/-- **C57** (negation) Normalizing a detector event file is not crash safe: dying
between truncation and writing leaves neither the old nor the new events. -/
theorem C57_event_normalize_crash_false :
    ∃ (fs fs' : FS Nat) (old new : List Nat), fs "events.dat" = some old ∧
      Crash fs (normalizeEventFileOps "events.dat" new) fs' ∧
      fs' "events.dat" ≠ some old ∧ fs' "events.dat" ≠ some new := by
  refine ⟨fun p => if p = "events.dat" then some [4, 6] else none, _, [4, 6], [2, 3], rfl,
    .torn (.after _), ?_, ?_⟩ <;> simp [FsOp.apply, FS.set]

/-- **C57** What does hold: if the process survives, the file holds the new
events, and at every crash point the file holds the old content or a prefix of
the new content.  Missing: nothing in between is visible. -/
theorem C57_event_normalize_partial {α} (fs fs' : FS α) (file : String) (old new : List α)
    (hfile : fs file = some old) :
    (runOps fs (normalizeEventFileOps file new)) file = some new ∧
    (Crash fs (normalizeEventFileOps file new) fs' →
      fs' file = some old ∨ ∃ k, fs' file = some (new.take k)) := by
  constructor
  · simp [normalizeEventFileOps, runOps, FsOp.apply, FS.set]
  · intro h
    cases h with
    | torn ht =>
      cases ht with
      | before => exact Or.inl hfile
      | after => exact Or.inr ⟨0, by simp [FsOp.apply, FS.set]⟩
    | later hl =>
      cases hl with
      | torn ht =>
        cases ht with
        | before => exact Or.inr ⟨0, by simp [FsOp.apply, FS.set]⟩
        | after => exact Or.inr ⟨new.length, by simp [FsOp.apply, FS.set]⟩
        | middle p rs k => exact Or.inr ⟨k, by simp [FsOp.apply, FS.set]⟩
      | later hl => cases hl; exact Or.inr ⟨new.length, by simp [FsOp.apply, FS.set]⟩

example : Crash exFS (normalizeEventFileOps "a" [7, 8])
    (FsOp.apply (FsOp.apply exFS (.create "a")) (.append "a" ([7, 8].take 1))) :=
  .later (.torn (.middle "a" [7, 8] 1))

/-- **C08** Post-processing of a neutron-storing component: the merged file
contains all neutrons of all steps with unchanged kinematics, and its mean
probability is the total raw probability per Monte Carlo sample. -/
theorem C08_mean_intensity {F} [Field F] [CharZero F] [DecidableEq F] (files : List (List (Neutron F)))
    (mcsamples : List F) (hlen : files.length = mcsamples.length) (hm : mcsamples.sum ≠ 0)
    (hne : files.flatten ≠ []) :
    ∃ out, mergeAndNormalizeSerial files mcsamples = .ok (some out) ∧
      out.length = files.flatten.length ∧
      (out.map Neutron.p).sum / (out.length : F) = (files.flatten.map Neutron.p).sum / mcsamples.sum ∧
      ∀ (i : Nat) (r : Neutron F), files.flatten[i]? = some r → ∃ r' : Neutron F, out[i]? = some r' ∧ { r' with p := r.p } = r := by
  have h0 : files.length ≠ 0 := by
    intro h
    rw [List.length_eq_zero_iff] at h
    subst h; simp at hne
  have h1 : files.flatten.length ≠ 0 := by
    intro h; exact hne (List.length_eq_zero_iff.mp h)
  refine ⟨files.flatten.map (scaleRow (mcsamples.sum / (files.flatten.length : F))), ?_, List.length_map _, ?_, ?_⟩
  · simp only [mergeAndNormalizeSerial, hlen, ne_eq, not_true_eq_false, if_false, h1]
    rw [hlen] at h0
    rw [if_neg h0]
  · rw [sum_scale]
    have hF : (files.flatten.length : F) ≠ 0 := by exact_mod_cast h1
    rw [List.length_map]
    field_simp
  · intro i r hi
    exact ⟨scaleRow _ r, by rw [List.getElem?_map, hi]; rfl, by simp [scaleRow]⟩

example : ∃ out, mergeAndNormalizeSerial
    [([⟨1,2,3,4,5,6,7,8,9,10⟩] : List (Neutron ℚ)), [], [⟨0,0,0,0,0,0,0,0,0,2⟩]] [5, 5, 2] = .ok (some out) :=
  (C08_mean_intensity _ [5, 5, 2] rfl (by norm_num) (by simp)).imp fun _ h => h.1

/-- **C08** The result does not depend on how the run was divided: two runs with
the same stream of neutrons and the same total number of samples give the same
file. -/
theorem C08_division_independent {F} [Field F] [DecidableEq F] (files files' : List (List (Neutron F)))
    (mcs mcs' : List F) (hlen : files.length = mcs.length) (hlen' : files'.length = mcs'.length)
    (h0 : files ≠ []) (h0' : files' ≠ []) (hflat : files.flatten = files'.flatten) (hsum : mcs.sum = mcs'.sum) :
    mergeAndNormalizeSerial files mcs = mergeAndNormalizeSerial files' mcs' := by
  have a : ¬ (files.length = 0) := fun h => h0 (List.length_eq_zero_iff.mp h)
  have b : ¬ (files'.length = 0) := fun h => h0' (List.length_eq_zero_iff.mp h)
  simp only [mergeAndNormalizeSerial, hlen, hlen', hflat, hsum, ne_eq, not_true_eq_false, if_false]
  rw [hlen] at a
  rw [hlen'] at b
  rw [if_neg a, if_neg b]

example : mergeAndNormalizeSerial [[(⟨1,2,3,4,5,6,7,8,9,10⟩ : Neutron ℚ)], []] [3, 4] =
    mergeAndNormalizeSerial [[⟨1,2,3,4,5,6,7,8,9,10⟩]] [7] :=
  C08_division_independent _ _ _ _ rfl rfl (by simp) (by simp) rfl (by norm_num)

/-- **C08** A missing storage or sample-count file is reported. -/
theorem C08_mismatch_reported {F} [Field F] [DecidableEq F] (files : List (List (Neutron F))) (mcs : List F)
    (h : files.length ≠ mcs.length) :
    mergeAndNormalizeSerial files mcs = .error .assertionError ∧
    mergeAndNormalizeLib files mcs = .error .assertionError := by
  simp [mergeAndNormalizeSerial, mergeAndNormalizeLib, h]

example : mergeAndNormalizeSerial [[], []] [(3 : ℚ)] = .error .assertionError :=
  (C08_mismatch_reported _ _ (by decide)).1

/-- **C56** (negation) The library function for merging and normalizing fails when
no neutron reached the storage, while the component's own post-processing
handles that case. -/
theorem C56_lib_merge_empty_false :
    ∃ (files : List (List (Neutron ℚ))) (mcs : List ℚ),
      mergeAndNormalizeSerial files mcs = .ok (some []) ∧
      mergeAndNormalizeLib files mcs = .error .zeroDivision :=
  ⟨[[], []], [10, 10], rfl, rfl⟩

/-- **C56** What does hold: the two post-processings agree whenever at least one
neutron was stored.  Missing: the empty case. -/
theorem C56_lib_merge_agrees_partial {F} [Field F] [DecidableEq F] (files : List (List (Neutron F)))
    (mcs : List F) (hne : files.flatten ≠ []) :
    mergeAndNormalizeLib files mcs = mergeAndNormalizeSerial files mcs := by
  have h1 : files.flatten.length ≠ 0 := by
    intro h; exact hne (List.length_eq_zero_iff.mp h)
  simp only [mergeAndNormalizeSerial, mergeAndNormalizeLib, h1, if_false]

example : [[], [(⟨0,0,0,0,0,0,0,0,0,2⟩ : Neutron ℚ)]].flatten ≠ [] := by simp

/-- **C12** Replaying a stored file on `S` ranks, round after round with `n` neutrons
per rank: rank `j` in round `t` gets the cyclic window of length `n` starting at
`S·(sum of earlier n's) + j·n`, and everything delivered, in rank order within
each round, is one gapless cyclic pass through the file. -/
theorem C12_replay {α} (file : List α) (hN : 0 < file.length) (S : Nat) (ns : List Nat)
    (hn : ∀ n ∈ ns, 0 < n) :
    ∃ out, replay 0 (List.replicate S (openRead file)) ns = .ok out ∧ out.length = ns.length ∧
      (∀ t n, ns[t]? = some n → ∀ j, j < S → ∃ as a, out[t]? = some as ∧ as[j]? = some a ∧
        IsCyclicWindow file ((S * (ns.take t).sum + j * n) % file.length) n a) ∧
      IsCyclicWindow file 0 (S * ns.sum) out.flatten.flatten := by
  obtain ⟨out, e, hl, hj, hw⟩ := replay_ok file hN ns 0 (List.replicate S (openRead file))
    (by intro s hs; rw [List.mem_replicate] at hs; rw [hs.2]; rfl) hn
  refine ⟨out, e, hl, ?_, ?_⟩
  · intro t n ht j hjS
    obtain ⟨as, a, h1, h2, h3⟩ := hj t n ht j (by simpa using hjS)
    exact ⟨as, a, h1, h2, by simpa using h3⟩
  · simpa using hw

example : replay 0 (List.replicate 2 (openRead [10, 11, 12, 13, 14])) [2, 1] =
    .ok [[[10, 11], [12, 13]], [[14], [10]]] := rfl

end Verif.Storage
