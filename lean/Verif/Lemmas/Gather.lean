import Verif.Spec.Gather
import Verif.Props.Run
import Mathlib.Algebra.BigOperators.Group.List.Basic
import Mathlib.Tactic.Abel
/-!
Lemmas about the files that the post-processing finds.
-/

namespace Verif.Gather

open Spec

theorem magic_plain {p : Name} (h : PlainName p) : magic p = false := by
  unfold magic
  rw [List.any_eq_false]
  intro c hc
  have h1 : c ≠ '*' := fun e => h.1 (e ▸ hc)
  have h2 : c ≠ '?' := fun e => h.2.1 (e ▸ hc)
  have h3 : c ≠ '[' := fun e => h.2.2 (e ▸ hc)
  simp [h1, h2, h3]

theorem nameFits_plain {p s : Name} (h : PlainName p) : nameFits p s = true ↔ s = p := by
  unfold nameFits
  rw [magic_plain h]
  simp

theorem nameFits_star {s : Name} : nameFits ['*'] s = !hidden s := by
  have h1 : magic ['*'] = true := by decide
  have h2 : hidden ['*'] = false := by decide
  have h3 : fits (tokens ['*'].length ['*']) s = true := by
    change fits [Tok.star] s = true
    unfold fits
    rw [List.any_eq_true]
    exact ⟨[], by simp, rfl⟩
  unfold nameFits
  rw [h1, h2, h3]
  simp

theorem pathFits_plain {outdir : Path} {name : Name} (ho : ∀ n ∈ outdir, PlainName n) (hn : PlainName name) (p : Path) :
    pathFits (outdir ++ [['*'], name]) p = true ↔ ∃ d, hidden d = false ∧ p = outdir ++ [d, name] := by
  induction outdir generalizing p with
  | nil =>
    match p with
    | [] => simp [pathFits]
    | [a] => simp [pathFits]
    | [a, b] =>
      simp only [List.nil_append, pathFits, Bool.and_true, Bool.and_eq_true, nameFits_star, nameFits_plain hn]
      constructor
      · rintro ⟨h, rfl⟩; exact ⟨a, by simpa using h, rfl⟩
      · rintro ⟨d, h, e⟩
        obtain ⟨rfl, rfl⟩ : a = d ∧ b = name := by simpa using e
        exact ⟨by simpa using h, rfl⟩
    | a :: b :: c :: r => simp [pathFits]
  | cons n os ih =>
    match p with
    | [] => simp [pathFits]
    | a :: r =>
      simp only [List.cons_append, pathFits, Bool.and_eq_true, nameFits_plain (ho n (by simp)),
        ih (fun m hm => ho m (by simp [hm])) r, List.cons.injEq]
      constructor
      · rintro ⟨rfl, d, h, rfl⟩; exact ⟨d, h, rfl, rfl⟩
      · rintro ⟨d, h, rfl, rfl⟩; exact ⟨rfl, d, h, rfl⟩

theorem stepDir_shown (size r s : Nat) : hidden (Run.stepDir size r s) = false := by
  unfold Run.stepDir hidden
  split <;> simp

theorem stepDir_inj {size r s r' s' : Nat} (hs : size ≠ 0) (h : Run.stepDir size r s = Run.stepDir size r' s') :
    r = r' ∧ s = s' :=
  Run.C11_parallel_dirs_distinct [] size r s r' s' hs (by simp [Run.outputDirInProgress, h])

section
variable {C F X : Type}

theorem place_ne {outdir : Path} {name : Name} {size : Nat} (hs : size ≠ 0) {a b : Step C F}
    (h : ¬ (a.rank = b.rank ∧ a.step = b.step)) : place outdir name size a ≠ place outdir name size b := by
  intro e
  unfold place at e
  have := List.append_cancel_left e
  exact h (stepDir_inj hs (by simpa using this))

theorem place_fits {outdir : Path} {name : Name} {size : Nat} (ho : ∀ n ∈ outdir, PlainName n) (hn : PlainName name)
    (s : Step C F) : pathFits (outdir ++ [['*'], name]) (place outdir name size s) = true :=
  (pathFits_plain ho hn _).2 ⟨_, stepDir_shown _ _ _, rfl⟩

/-- files written one after the other are all found -/
theorem gather_foldl (outdir : Path) (name : Name) (file : Step C F → Path) (val : Step C F → X)
    (ss : List (Step C F)) (hfit : ∀ s ∈ ss, pathFits (outdir ++ [['*'], name]) (file s) = true)
    (hd : ss.Pairwise fun a b => file a ≠ file b) (files : List (Path × X)) (hf : ∀ s ∈ ss, ∀ f ∈ files, f.1 ≠ file s) :
    gather (ss.foldl (fun fs s => write fs (file s) (val s)) files) outdir name =
      (ss.map fun s => (file s, val s)).reverse ++ gather files outdir name := by
  induction ss generalizing files with
  | nil => rfl
  | cons s ss ih =>
    rw [List.pairwise_cons] at hd
    have hw : write files (file s) (val s) = (file s, val s) :: files := by
      unfold write
      rw [List.filter_eq_self.2]
      intro f hf'
      simpa using hf s (by simp) f hf'
    rw [List.foldl_cons, hw, ih (fun t ht => hfit t (by simp [ht])) hd.2]
    · rw [List.map_cons, List.reverse_cons, List.append_assoc]
      congr 1
      unfold gather
      rw [List.filter_cons, if_pos (hfit s (by simp))]
      rfl
    · intro t ht f hf'
      rcases List.mem_cons.1 hf' with rfl | hf'
      · exact hd.1 t ht
      · exact hf t (by simp [ht]) f hf'

theorem record_eq (outdir : Path) (name : Name) (size : Nat) (ss : List (Step C F)) (d : Disk C F) :
    record outdir name size ss d =
      ⟨ss.foldl (fun fs s => write fs (place outdir name size s) s.data) d.data,
       ss.foldl (fun fs s => write fs (place outdir samplesName size s) s.n) d.numbers⟩ := by
  induction ss generalizing d with
  | nil => rfl
  | cons s ss ih => unfold record; rw [ih]; rfl

theorem gather_fresh {outdir : Path} {name : Name} (ho : ∀ n ∈ outdir, PlainName n) (hn : PlainName name)
    {files : List (Path × X)} (h : ∀ f ∈ files, ¬ outdir <+: f.1) : gather files outdir name = [] := by
  unfold gather
  rw [List.filter_eq_nil_iff]
  intro f hf hfit
  obtain ⟨d, _, e⟩ := (pathFits_plain ho hn _).1 hfit
  exact h f hf ⟨_, e.symm⟩

theorem place_new {outdir : Path} {name : Name} {size : Nat} {files : List (Path × X)}
    (h : ∀ f ∈ files, ¬ outdir <+: f.1) (s : Step C F) : ∀ f ∈ files, f.1 ≠ place outdir name size s :=
  fun f hf e => h f hf ⟨_, e.symm⟩

theorem once_places {outdir : Path} {name : Name} {size : Nat} (hs : size ≠ 0) {ss : List (Step C F)} (h : Once ss) :
    ss.Pairwise fun a b => place outdir name size a ≠ place outdir name size b :=
  h.imp fun hab => place_ne hs hab

theorem gather_written {outdir : Path} {name : Name} {size : Nat} (ho : ∀ n ∈ outdir, PlainName n) (hn : PlainName name)
    (hs : size ≠ 0) {ss : List (Step C F)} (h : Once ss) (val : Step C F → X) {files : List (Path × X)}
    (hf : ∀ f ∈ files, ¬ outdir <+: f.1) :
    (gather (ss.foldl (fun fs s => write fs (place outdir name size s) (val s)) files) outdir name).map Prod.snd =
      (ss.map val).reverse := by
  rw [gather_foldl outdir name _ val ss (fun s _ => place_fits ho hn s) (once_places hs h) files
    (fun s _ => place_new hf s), gather_fresh ho hn hf, List.append_nil, List.map_reverse, List.map_map]
  rfl

end

theorem samples_plain : PlainName samplesName := by
  unfold PlainName samplesName
  decide

theorem foldl_add {F : Type} [AddCommMonoid F] (l : List F) (a : F) : l.foldl (· + ·) a = a + l.sum := by
  induction l generalizing a with
  | nil => simp
  | cons b l ih => rw [List.foldl_cons, ih, List.sum_cons]; abel

theorem foldl_hist {H : Type} [AddCommMonoid H] (l : List (Run.Hist H)) (a : Run.Hist H) :
    l.foldl Run.Hist.add a = ⟨a.I + (l.map (·.I)).sum, a.E2 + (l.map (·.E2)).sum⟩ := by
  induction l generalizing a with
  | nil => simp
  | cons b l ih =>
    rw [List.foldl_cons, ih]
    simp only [Run.Hist.add, List.map_cons, List.sum_cons]
    congr 1 <;> abel

theorem histSum_eq {H F : Type} [AddCommMonoid H] [AddCommMonoid F] (hs : List (Run.Hist H)) (ns : List F)
    (h : hs.length = ns.length) (hne : hs ≠ []) :
    Run.histSum hs ns = .ok (some (⟨(hs.map (·.I)).sum, (hs.map (·.E2)).sum⟩, ns.sum)) := by
  unfold Run.histSum
  rw [if_neg (not_not_intro h)]
  cases hs with
  | nil => exact absurd rfl hne
  | cons a l =>
    dsimp only
    rw [foldl_hist, foldl_add]
    simp

section
variable {C F : Type}

/-- a storage with a single name writes what a monitor writes -/
theorem storeStep_single {outdir : Path} {name : Name} {size : Nat} (overwrite : Bool) (s : Step C F) (fs : Fs C F)
    (hf : ∀ f ∈ fs.disk.data, f.1 ≠ place outdir name size s) :
    storeStep ⟨false, [name]⟩ overwrite outdir size s fs =
      .ok ⟨(outdir ++ [Run.stepDir size s.rank s.step]) :: fs.dirs,
        write fs.disk.data (place outdir name size s) s.data, write fs.disk.numbers (place outdir samplesName size s) s.n⟩ := by
  have hp : Target.file ⟨false, [name]⟩ outdir size s = place outdir name size s := by
    simp [Target.file, place]
  have hl : (place outdir name size s).dropLast = outdir ++ [Run.stepDir size s.rank s.step] := by
    have : place outdir name size s = (outdir ++ [Run.stepDir size s.rank s.step]) ++ [name] := by simp [place]
    rw [this, List.dropLast_concat]
  unfold storeStep
  dsimp only
  rw [hp, hl, if_neg, if_neg (by simp)]
  have : (fs.disk.data.any fun f => f.1 == place outdir name size s) = false := by
    rw [List.any_eq_false]
    intro f hf'
    simpa using hf f hf'
  rw [this]
  simp

theorem storeAll_single {outdir : Path} {name : Name} {size : Nat} (hs : size ≠ 0) (overwrite : Bool)
    (ss : List (Step C F)) (h : Once ss) (fs : Fs C F)
    (hf : ∀ s ∈ ss, ∀ f ∈ fs.disk.data, f.1 ≠ place outdir name size s) :
    ∃ dirs, storeAll ⟨false, [name]⟩ overwrite outdir size ss fs = .ok ⟨dirs, record outdir name size ss fs.disk⟩ := by
  induction ss generalizing fs with
  | nil => exact ⟨fs.dirs, rfl⟩
  | cons s ss ih =>
    have h' := List.pairwise_cons.1 h
    unfold storeAll
    rw [storeStep_single overwrite s fs (hf s (by simp))]
    refine ih h'.2 _ ?_
    intro t ht f hf'
    rcases List.mem_cons.1 hf' with rfl | hf'
    · exact place_ne hs (h'.1 t ht)
    · exact hf t (by simp [ht]) f (List.mem_of_mem_filter hf')

theorem write_mem {X : Type} {files : List (Path × X)} {p : Path} {c : X} {f : Path × X} (h : f ∈ write files p c) :
    f = (p, c) ∨ f ∈ files := by
  rcases List.mem_cons.1 h with h | h
  · exact .inl h
  · exact .inr (List.mem_of_mem_filter h)

theorem foldl_write_mem {X : Type} (file : Step C F → Path) (val : Step C F → X) (ss : List (Step C F))
    (files : List (Path × X)) {f : Path × X} (h : f ∈ ss.foldl (fun fs s => write fs (file s) (val s)) files) :
    (∃ s ∈ ss, f.1 = file s) ∨ f ∈ files := by
  induction ss generalizing files with
  | nil => exact .inr h
  | cons s ss ih =>
    rcases ih _ h with ⟨t, ht, e⟩ | h
    · exact .inl ⟨t, by simp [ht], e⟩
    · rcases write_mem h with rfl | h
      · exact .inl ⟨s, by simp, rfl⟩
      · exact .inr h

end

theorem foldr_sum {F : Type} [AddCommMonoid F] (l : List F) : l.foldr (· + ·) 0 = l.sum := rfl

end Verif.Gather
