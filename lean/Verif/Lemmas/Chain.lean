import Verif.Spec.Chain
import Verif.Lemmas.Frames
/-! Helper lemmas about the simulation chain. -/

namespace Verif.Chain
open Verif.Frames
variable {W F : Type} [Field F] [LinearOrder F]

theorem snapshot_all (buf : List (Event F)) : Buffer.snapshot buf buf.length = .ok (live buf) := by
  simp only [Buffer.snapshot, le_refl, if_true, List.take_length, live]
  congr 2
  funext e
  simp only [← not_le, decide_not]

theorem nodeUpdate_eq (c : Comp W F) (w : W) (buf : List (Event F)) (f : Frame F) :
    nodeUpdate c (w, buf, f) = match c.process w (live (transport f c.frame buf)) with
      | .error e => .error e
      | .ok (w', b) => .ok (w', b, c.frame) := by
  simp only [nodeUpdate, snapshot_all]
  cases c.process w (live (transport f c.frame buf)) <;> rfl

/-- run nodes in order -/
def runNodes : List (Comp W F) → W × List (Event F) × Frame F → Except Err (W × List (Event F) × Frame F)
  | [], v => .ok v
  | c :: cs, v => match nodeUpdate c v with
    | .error e => .error e
    | .ok v' => runNodes cs v'

theorem runNodes_append (a b : List (Comp W F)) (v) : runNodes (a ++ b) v =
    match runNodes a v with | .error e => .error e | .ok v' => runNodes b v' := by
  induction a generalizing v with
  | nil => rfl
  | cons c a ih =>
    simp only [List.cons_append, runNodes]
    cases nodeUpdate c v with
    | error e => rfl
    | ok v' => exact ih v'

theorem dictSet_new {V : Type} (d : List (String × V)) (k : String) (v : V) (h : k ∉ d.map Prod.fst) :
    dictSet d k v = d ++ [(k, v)] := by
  have : d.any (fun x => decide (x.1 = k)) = false := by
    rw [List.any_eq_false]
    intro x hx
    simp only [decide_eq_true_eq]
    rintro rfl
    exact h (List.mem_map_of_mem hx)
  simp [dictSet, this]

/-- neighbouring pairs -/
def pairs (prev : String) : List (Comp W F) → List (String × String)
  | [] => []
  | c :: cs => (prev, c.name) :: pairs c.name cs

omit [Field F] [LinearOrder F] in
theorem createLoop_eq (cs : List (Comp W F)) : ∀ (prev : String) (nodes : List (String × Comp W F)) conns,
    (nodes.map Prod.fst ++ cs.map Comp.name).Nodup →
    createLoop prev cs nodes conns =
      (nodes ++ cs.map (fun c => (c.name, c)), conns ++ pairs prev cs, ((prev :: cs.map Comp.name).getLast (by simp))) := by
  induction cs with
  | nil => intro prev nodes conns _; simp [createLoop, pairs]
  | cons c cs ih =>
    intro prev nodes conns h
    have hnew : c.name ∉ nodes.map Prod.fst := by
      intro hm
      rw [List.map_cons, List.nodup_append] at h
      exact h.2.2 _ hm _ (List.mem_cons_self ..) rfl
    rw [createLoop, dictSet_new _ _ _ hnew, ih]
    · simp [pairs]
    · rw [List.map_append, List.append_assoc]
      simpa using h

omit [Field F] [LinearOrder F] in
theorem pairs_targets (cs : List (Comp W F)) (prev : String) : (pairs prev cs).map Prod.snd = cs.map Comp.name := by
  induction cs generalizing prev with
  | nil => rfl
  | cons c cs ih => simp [pairs, ih]

omit [Field F] [LinearOrder F] in
theorem pairs_append (a b : List (Comp W F)) (prev : String) :
    pairs prev (a ++ b) = pairs prev a ++ pairs ((prev :: a.map Comp.name).getLast (by simp)) b := by
  induction a generalizing prev with
  | nil => simp [pairs]
  | cons c a ih => simp [pairs, ih]

theorem find?_target {A : Type} (l1 l2 : List (A × String)) (u : A) (n : String) (h : n ∉ l1.map Prod.snd) :
    (l1 ++ (u, n) :: l2).find? (fun x => decide (x.2 = n)) = some (u, n) := by
  rw [List.find?_append]
  have : l1.find? (fun x => decide (x.2 = n)) = none := by
    rw [List.find?_eq_none]
    intro x hx
    simp only [decide_eq_true_eq]
    rintro rfl
    exact h (List.mem_map_of_mem hx)
  simp [this]

theorem find?_key {V : Type} (l1 l2 : List (String × V)) (v : V) (n : String) (h : n ∉ l1.map Prod.fst) :
    (l1 ++ (n, v) :: l2).find? (fun x => decide (x.1 = n)) = some (n, v) := by
  rw [List.find?_append]
  have : l1.find? (fun x => decide (x.1 = n)) = none := by
    rw [List.find?_eq_none]
    intro x hx
    simp only [decide_eq_true_eq]
    rintro rfl
    exact h (List.mem_map_of_mem hx)
  simp [this]

/-- pulling the last node of a prefix runs the prefix in order -/
theorem output_eq (all : List (Comp W F)) (hnd : ("self" :: all.map Comp.name).Nodup) (extra : List (String × String))
    (v : W × List (Event F) × Frame F) :
    ∀ (pre suf : List (Comp W F)), all = pre ++ suf → ∀ fuel, pre.length < fuel →
    output (all.map (fun c => (c.name, c))) (pairs "self" all ++ extra) v fuel
      (("self" :: pre.map Comp.name).getLast (by simp)) = runNodes pre v := by
  intro pre
  induction pre using List.reverseRecOn with
  | nil =>
    intro suf _ fuel hf
    cases fuel with
    | zero => omega
    | succ fuel => simp [output, runNodes]
  | append_singleton pre c ih =>
    intro suf hall fuel hf
    cases fuel with
    | zero => omega
    | succ fuel =>
      have hlast : (("self" :: (pre ++ [c]).map Comp.name).getLast (by simp)) = c.name := by simp
      rw [hlast]
      have hnames : (pre.map Comp.name ++ c.name :: suf.map Comp.name) = all.map Comp.name := by
        rw [hall]; simp
      rw [List.nodup_cons] at hnd
      have hself : c.name ≠ "self" := by
        intro h; apply hnd.1; rw [← hnames, ← h]; simp
      have hnotpre : c.name ∉ pre.map Comp.name := by
        have := hnd.2
        rw [← hnames, List.nodup_append] at this
        intro hm
        exact this.2.2 _ hm _ (List.mem_cons_self ..) rfl
      rw [output, if_neg hself]
      have hconn : (pairs "self" all ++ extra).find? (fun x => decide (x.2 = c.name)) =
          some ((("self" :: pre.map Comp.name).getLast (by simp)), c.name) := by
        rw [hall, List.append_assoc, pairs_append, List.append_assoc]
        simp only [List.cons_append, List.nil_append, pairs]
        apply find?_target
        rw [pairs_targets]; exact hnotpre
      rw [hconn]
      simp only
      rw [ih (c :: suf) (by simp [hall]) fuel (by simp at hf; omega)]
      rw [runNodes_append]
      cases runNodes pre v with
      | error e => rfl
      | ok v' =>
        have hnode : (all.map (fun c => (c.name, c))).find? (fun x => decide (x.1 = c.name)) = some (c.name, c) := by
          rw [hall, List.append_assoc, List.map_append]
          simp only [List.cons_append, List.nil_append, List.map_cons]
          apply find?_key
          rw [List.map_map]; exact hnotpre
        rw [hnode]
        simp only [runNodes]
        cases nodeUpdate c v' <;> rfl

theorem runNodes_through (last : Comp W F) (hl : ∀ w buf, last.process w buf = .ok (w, buf)) (cs : List (Comp W F)) :
    ∀ (w : W) (buf : List (Event F)) (f : Frame F),
    (match runNodes (cs ++ [last]) (w, buf, f) with
      | .error e => .error e
      | .ok (w', b, _) => (.ok (w', b) : Except Err (W × List (Event F)))) = through last.frame f cs w buf := by
  induction cs with
  | nil =>
    intro w buf f
    simp only [List.nil_append, runNodes, nodeUpdate_eq, hl, through]
  | cons c cs ih =>
    intro w buf f
    simp only [List.cons_append, runNodes, nodeUpdate_eq, through]
    cases c.process w (live (transport f c.frame buf)) with
    | error e => rfl
    | ok r => obtain ⟨w', b⟩ := r; exact ih w' b c.frame

theorem transport_self_lab [IsStrictOrderedRing F] (buf : List (Event F)) :
    transport (⟨0, M3.one⟩ : Frame F) ⟨0, M3.one⟩ buf = buf := by
  have h0 : (0 : F) ≤ 1 / 10 ^ 8 := by positivity
  have e1 : (relative (⟨0, M3.one⟩ : Frame F) ⟨0, M3.one⟩).1 = 0 := by
    ext <;> simp [relative, M3.mulVec]
  have e2 : (relative (⟨0, M3.one⟩ : Frame F) ⟨0, M3.one⟩).2 = M3.one := by
    ext <;> simp [relative, M3.mul, M3.mulVec, M3.transpose, M3.one]
  have a0 : isAlmost0 (0 : V3 F) = true := by
    rw [isAlmost0_iff]; refine ⟨?_, ?_, ?_⟩ <;> simp
  have aI : isAlmostI (M3.one : M3 F) = true := by
    rw [isAlmostI_iff]; refine ⟨⟨?_, ?_, ?_⟩, ⟨?_, ?_, ?_⟩, ?_, ?_, ?_⟩ <;> simp [M3.one]
  simp [transport, abs2relBatch, e1, e2, a0, aI]

end Verif.Chain
