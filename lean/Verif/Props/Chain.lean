import Verif.Lemmas.Chain
import Verif.Lemmas.Buffer
import Mathlib.Tactic.NormNum
/-!
Property theorems about buffers and the simulation chain: C20, C21, C22, C68, C69.
-/

namespace Verif.Buffer

/-- **C20** Processing a batch: there is an order of the original events in which each is
handed to the scatterer exactly once, and the resulting batch consists exactly (as a multiset,
and up to the removal in that order) of the scattered events that were not absorbed. -/
theorem C20_process {E σ : Type} (absorbed : E → Bool) (scatter : σ → E → σ × E) (s : σ) (evts : List E) :
    ∃ order, order.Perm evts ∧
      process absorbed scatter s evts =
        ((scatterAll scatter s order).1, (scatterAll scatter s order).2.filter (fun e => !absorbed e)) := by
  obtain ⟨order, C', hp, he⟩ := processLoop_spec absorbed scatter evts.length evts rfl s [] []
  refine ⟨order, hp, ?_⟩
  simp only [List.nil_append, List.append_nil, List.length_nil, Nat.zero_add] at he
  simp only [process, he]
  simp

/-- **C20** For a scatterer without memory the surviving events are exactly the scattered
originals that were not absorbed, as a multiset; nothing is lost, duplicated or scattered twice. -/
theorem C20_process_multiset {E : Type} (absorbed : E → Bool) (f : E → E) (evts : List E) :
    ((process absorbed (fun (_ : Unit) e => ((), f e)) () evts).2).Perm
      ((evts.map f).filter (fun e => !absorbed e)) := by
  obtain ⟨order, hp, he⟩ := C20_process absorbed (fun (_ : Unit) e => ((), f e)) () evts
  have : ∀ l : List E, (scatterAll (fun (_ : Unit) e => ((), f e)) () l).2 = l.map f := by
    intro l; induction l with
    | nil => rfl
    | cons a l ih => simp [scatterAll, ih]
  rw [he, this]
  exact (hp.map f).filter _

example : (process (fun e : Int => e < 0) (fun (n : Nat) e => (n + 1, if e % 2 = 0 then -1 else e * 10)) 0
    [1, 2, 3, 4, 6, 5]) = (6, [10, 50, 30]) := by decide +kernel

/-- **C20** With a stateful scatterer: the state is threaded through the events in order. -/
theorem C20_processM_state {E σ : Type} (absorbed : E → Bool) (f : σ → E → σ × List E) (s : σ) (e : E) (l : List E) :
    processM absorbed f s (e :: l) =
      ((processM absorbed f (f s e).1 l).1,
        (f s e).2.filter (fun x => !absorbed x) ++ (processM absorbed f (f s e).1 l).2) := by
  simp only [processM, List.foldl_cons]
  rw [processM_foldl]
  simp [processM]

/-- **C20** Multiple scattering: in the order of the events, all surviving descendants. -/
theorem C20_processM {E : Type} (absorbed : E → Bool) (f : E → List E) (evts : List E) :
    (processM absorbed (fun (_ : Unit) e => ((), f e)) () evts).2 =
      evts.flatMap (fun e => (f e).filter (fun x => !absorbed x)) := by
  induction evts with
  | nil => rfl
  | cons e l ih =>
    rw [C20_processM_state]
    simp only [List.flatMap_cons, ← ih]

example : (processM (fun e : Int => e < 0) (fun (n : Nat) e => (n + 1, [e, -e, e + n])) 5 [1, 2]) =
    (7, [1, 6, 2, 8]) := by decide +kernel

/-- **C21** The snapshot has, in order, exactly the events among the first `n` with positive
probability; a snapshot of the snapshot is the same. -/
theorem C21_snapshot {F : Type} [LinearOrder F] [Zero F] (evts : List (Event F)) (n : Nat) (h : n ≤ evts.length) :
    ∃ out, snapshot evts n = .ok out ∧ out.Sublist (evts.take n) ∧
      (∀ e, e ∈ out ↔ e ∈ evts.take n ∧ 0 < e.p) ∧
      (∀ P : Event F → Bool, (∀ x, P x = true → 0 < x.p) → out.countP P = (evts.take n).countP P) ∧
      snapshot out out.length = .ok out := by
  refine ⟨(evts.take n).filter (fun e => !decide (e.p ≤ 0)), by simp [snapshot, h], List.filter_sublist, ?_, ?_, ?_⟩
  · intro e; simp
  · intro P hP
    rw [List.countP_filter]
    congr 1
    funext x
    by_cases hx : P x = true
    · simp [hx, hP x hx]
    · simp [hx]
  · simp [snapshot, List.filter_filter]

/-- **C21** All events with positive probability are kept: taking a snapshot of a batch without dead
neutrons changes nothing. -/
theorem C21_nothing_lost {F : Type} [LinearOrder F] [Zero F] (evts : List (Event F)) (h : ∀ e ∈ evts, 0 < e.p) :
    snapshot evts evts.length = .ok evts := by
  simp only [snapshot, le_refl, if_true, List.take_length]
  congr 1
  rw [List.filter_eq_self]
  intro e he
  simpa using h e he

example : snapshot [(⟨⟨0, 0, 0⟩, ⟨0, 0, 0⟩, 0, 0, 1, 2⟩ : Event ℚ), ⟨⟨0, 0, 0⟩, ⟨0, 0, 0⟩, 0, 0, 2, 0⟩,
    ⟨⟨0, 0, 0⟩, ⟨0, 0, 0⟩, 0, 0, 3, -1⟩, ⟨⟨0, 0, 0⟩, ⟨0, 0, 0⟩, 0, 0, 4, 5⟩] 4 =
    .ok [⟨⟨0, 0, 0⟩, ⟨0, 0, 0⟩, 0, 0, 1, 2⟩, ⟨⟨0, 0, 0⟩, ⟨0, 0, 0⟩, 0, 0, 4, 5⟩] := by decide +kernel

/-- **C68** (negation) Asking for a snapshot of more neutrons than there are reads beyond the
end of the buffer. -/
theorem C68_snapshot_range_false : ∃ (evts : List (Event ℚ)) (n : Nat),
    snapshot evts n = .error .undefinedBehaviour := ⟨[], 1, by decide⟩

/-- **C68** What does hold: for every `n` up to the size the snapshot is defined.  Missing: larger `n`. -/
theorem C68_snapshot_range_partial {F : Type} [LinearOrder F] [Zero F] (evts : List (Event F)) (n : Nat)
    (h : n ≤ evts.length) : ∃ out, snapshot evts n = .ok out ∧ out.length ≤ n := by
  obtain ⟨out, h1, h2, -⟩ := C21_snapshot evts n h
  exact ⟨out, h1, h2.length_le.trans (by simp)⟩

example : ∃ out, snapshot [(⟨⟨0, 0, 0⟩, ⟨0, 0, 0⟩, 0, 0, 1, 2⟩ : Event ℚ)] 1 = .ok out ∧ out.length ≤ 1 :=
  C68_snapshot_range_partial _ _ (le_refl _)

end Verif.Buffer

namespace Verif.Chain
open Verif.Frames
variable {W F : Type} [Field F] [LinearOrder F] [IsStrictOrderedRing F]

/-- **C22** Simulating an instrument whose components have distinct names sends the neutrons
through the components one after another in the given order, each exactly once, in its own frame,
with dead neutrons dropped before each; the result is given in the instrument frame.  An
exception of a component ends the simulation with this exception. -/
theorem C22_sequence (comps : List (Comp W F)) (w : W) (neutrons : List (Event F))
    (hn : ("self" :: "dummyBegin" :: (comps.map Comp.name ++ ["dummyEnd"])).Nodup) :
    simulate comps w neutrons = through lab lab comps w (live neutrons) := by
  have hnd : ("self" :: ((dummy "dummyBegin" :: (comps ++ [dummy "dummyEnd"])) : List (Comp W F)).map Comp.name).Nodup := by
    simpa [dummy] using hn
  generalize hall : ((dummy "dummyBegin" :: (comps ++ [dummy "dummyEnd"])) : List (Comp W F)) = all at hnd
  have hlast : (("self" :: all.map Comp.name).getLast (by simp)) = "dummyEnd" := by
    subst hall; simp [dummy]
  have hcreate : create comps = (all.map (fun c => (c.name, c)), pairs "self" all ++ [("dummyEnd", "self")]) := by
    simp only [create]
    rw [hall, createLoop_eq all "self" [] [] (by simpa using (List.nodup_cons.mp hnd).2)]
    simp [hlast]
  have hfind : (pairs "self" all ++ [("dummyEnd", "self")]).find? (fun x => decide (x.2 = "self")) =
      some ("dummyEnd", "self") := by
    apply find?_target (l2 := [])
    rw [pairs_targets]; exact (List.nodup_cons.mp hnd).1
  have hout := output_eq all hnd [("dummyEnd", "self")] (w, neutrons, ⟨0, M3.one⟩) all [] (by simp)
    (all.length + 1) (Nat.lt_succ_self _)
  rw [hlast] at hout
  simp only [simulate, hcreate, hfind, List.length_map, hout]
  have hlab : (lab : Frame F) = ⟨0, M3.one⟩ := rfl
  have hb : live neutrons = live (transport (⟨0, M3.one⟩ : Frame F) ⟨0, M3.one⟩ neutrons) := by
    rw [transport_self_lab]
  rw [← hall, hlab, hb]
  exact runNodes_through (dummy "dummyEnd") (fun _ _ => rfl) (dummy "dummyBegin" :: comps) w neutrons ⟨0, M3.one⟩

/-- a source that makes two neutrons, and a component that counts them -/
def exampleComps : List (Comp Nat ℚ) :=
  [⟨"source", ⟨⟨0, 0, 0⟩, M3.one⟩, fun w _ => .ok (w, [⟨⟨0, 0, 0⟩, ⟨0, 0, 1⟩, 0, 0, 0, 1⟩, ⟨⟨0, 0, 0⟩, ⟨0, 0, 1⟩, 0, 0, 0, -1⟩])⟩,
   ⟨"counter", ⟨⟨0, 0, 2⟩, M3.one⟩, fun w b => .ok (w + b.length, b)⟩]

example : ("self" :: "dummyBegin" :: (exampleComps.map Comp.name ++ ["dummyEnd"])).Nodup := by decide
example : simulate exampleComps 0 [] = .ok (1, [⟨⟨0, 0, 0⟩, ⟨0, 0, 1⟩, 0, 0, 0, 1⟩]) := by decide +kernel

omit [LinearOrder F] [IsStrictOrderedRing F] in
/-- **C69** (negation) If two components have the same name, what is built for the simulation does
not depend on what the first of them does: it is silently left out. -/
theorem C69_same_name_false : ∃ name : String, ∀ (c c' d : Comp W F), c.name = name → c'.name = name →
    d.name = name → create [c, d] = create [c', d] := by
  refine ⟨"monitor", fun c c' d h1 h2 h3 => ?_⟩
  simp [create, createLoop, dictSet, h1, h2, h3, dummy]

omit [LinearOrder F] [IsStrictOrderedRing F] in
/-- **C69** What does hold: with distinct names the nodes built for the simulation are
exactly the components.  Missing: components of the same name. -/
theorem C69_same_name_partial (comps : List (Comp W F))
    (hn : ("dummyBegin" :: (comps.map Comp.name ++ ["dummyEnd"])).Nodup) :
    (create comps).1.map Prod.snd = dummy "dummyBegin" :: (comps ++ [dummy "dummyEnd"]) := by
  simp only [create]
  rw [createLoop_eq _ "self" [] [] (by simpa [dummy] using hn)]
  simp [List.map_map, Function.comp_def]

example : ("dummyBegin" :: (exampleComps.map Comp.name ++ ["dummyEnd"])).Nodup := by decide

end Verif.Chain
