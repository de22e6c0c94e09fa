import Verif.Lemmas.CmakeSrc
/-!
Properties of the sources that are made for components (C364, C365).
-/

namespace Verif.CmakeSrc
open Spec

/-- **C364** (partial): the sources of different components, whose categories have no underscore, are in different directories, and the file for cmake has one
line for each of them after the targets. Missing: categories with an underscore, see `C364_false`. -/
theorem C364_partial (now : Nat) (cs : List Comp) (hs : ∀ c ∈ cs, Simple c) (hw : ∀ c ∈ cs, c.wrapped = false) (hd : cs.Pairwise Different) :
    (cs.map Comp.dir).Nodup ∧ (∀ c ∈ cs, timeOf (createAll now cs ⟨none, []⟩).dirs c.dir = some now) ∧
    (createAll now cs ⟨none, []⟩).lines.getD header = header ++ cs.map fun c => cmakeLine c.dir := by
  have hp : cs.Pairwise fun a b => a.dir ≠ b.dir :=
    hd.imp_of_mem fun ha hb h => dir_ne (hs _ ha) (hs _ hb) h
  refine ⟨?_, ?_, ?_⟩
  · rw [List.Nodup, List.pairwise_map]
    exact hp
  · intro c hc
    rw [timeOf_all now cs _ hp c hc]
    have : bypass c ⟨none, []⟩ = false := by
      unfold bypass
      rw [hw c hc]
      rfl
    rw [this]
    rfl
  · rw [lines_all now cs hw (fun c hc => dir_clean (hs c hc)) ⟨none, []⟩ [] rfl (by simp) hp (by simp)]
    simp

/-- two components of one category, and one with an underscore in its name -/
example : let cs : List Comp := [⟨"optics".toList, "Arm".toList, false, 3⟩, ⟨"optics".toList, "Guide".toList, false, 4⟩,
      ⟨"samples".toList, "V_sample".toList, false, 4⟩]
    (∀ c ∈ cs, Simple c) ∧ (∀ c ∈ cs, c.wrapped = false) ∧ cs.Pairwise Different := by
  unfold Simple Clean Different
  decide

/-- **C364**: whatever lines the file has, the line of the directory is afterwards in some line of it, the lines that were there stay in their order, and a
directory that has its line gets no second one. -/
theorem C364_again (ls : List Text) (d : Text) :
    (∃ l ∈ addLine (some ls) d, cmakeLine d <:+: l) ∧ ls <+: addLine (some ls) d ∧ (cmakeLine d ∈ ls → addLine (some ls) d = ls) := by
  unfold addLine
  dsimp only [Option.getD_some]
  refine ⟨?_, ?_, ?_⟩
  · split
    · rename_i h
      obtain ⟨l, hl, hi⟩ := List.any_eq_true.1 h
      exact ⟨l, hl, of_decide_eq_true hi⟩
    · exact ⟨cmakeLine d, by simp, List.infix_rfl⟩
  · split
    · exact List.prefix_rfl
    · exact List.prefix_append _ _
  · intro hm
    rw [if_pos]
    rw [List.any_eq_true]
    exact ⟨_, hm, by simp⟩

/-- a file with the line of a directory -/
example : cmakeLine "optics_Arm".toList ∈ header ++ [cmakeLine "optics_Arm".toList] := by
  decide

/-- **C364** (false in general): two different components share a directory and its line if the category of one has an underscore. -/
theorem C364_false : ∃ a b : Comp, Different a b ∧ ∀ now,
    (createAll now [a, b] ⟨none, []⟩).dirs = [(a.dir, now)] ∧
    (createAll now [a, b] ⟨none, []⟩).lines = some (header ++ [cmakeLine a.dir]) := by
  refine ⟨⟨['a', '_', 'b'], ['c'], false, 0⟩, ⟨['a'], ['b', '_', 'c'], false, 0⟩, by unfold Different; decide, fun now => ⟨?_, ?_⟩⟩
  · simp [createAll, bypass, create, Comp.dir, subdir]
  · have hc : Clean ['a', '_', 'b', '_', 'c'] := by unfold Clean; decide
    have h1 := addLine_eq (lines := none) (ds := []) rfl (by simp) hc
    have h2 := addLine_eq (lines := some (header ++ [cmakeLine ['a', '_', 'b', '_', 'c']])) (ds := [['a', '_', 'b', '_', 'c']]) rfl
      (by simpa using hc) hc
    rw [if_neg (by simp)] at h1
    rw [if_pos (by simp)] at h2
    change some (addLine (some (addLine none ['a', '_', 'b', '_', 'c'])) ['a', '_', 'b', '_', 'c']) = _
    rw [h1]
    exact congrArg some h2

/-- **C364** (false in general): a line that is only a comment keeps the directory out of the build. -/
theorem C364_comment_false (d : Text) (now : Nat) (c : Comp) (hd : c.dir = d) (hw : c.wrapped = false) (dirs : List (Text × Nat)) :
    (createAll now [c] ⟨some ['#' :: cmakeLine d], dirs⟩).lines = some ['#' :: cmakeLine d] := by
  subst hd
  have hb : bypass c ⟨some ['#' :: cmakeLine c.dir], dirs⟩ = false := by
    unfold bypass
    rw [hw]
    rfl
  unfold createAll createAll
  rw [hb, if_neg (by simp)]
  change some (addLine _ _) = _
  unfold addLine
  dsimp only [Option.getD_some]
  rw [if_pos]
  rw [List.any_eq_true]
  exact ⟨_, List.mem_singleton.2 rfl, decide_eq_true (List.suffix_cons _ _).isInfix⟩

/-- such a component -/
example : ∃ c : Comp, c.dir = "optics_Arm".toList ∧ c.wrapped = false :=
  ⟨⟨"optics".toList, "Arm".toList, false, 1⟩, by decide, rfl⟩

/-- **C365** (partial): of components in different directories, those that are not wrapped and those whose directory is older than their file get new sources;
the directories of the wrapped ones that are not older than the file keep their time, and so do directories of no component.
Missing: wrapped components without a directory, see `C365_false`. -/
theorem C365_partial (now : Nat) (cs : List Comp) (t : Tree) (h : cs.Pairwise fun a b => a.dir ≠ b.dir) :
    (∀ c ∈ cs, c.wrapped = false → timeOf (createAll now cs t).dirs c.dir = some now) ∧
    (∀ c ∈ cs, ∀ u, timeOf t.dirs c.dir = some u → u < c.time → timeOf (createAll now cs t).dirs c.dir = some now) ∧
    (∀ c ∈ cs, c.wrapped = true → ∀ u, timeOf t.dirs c.dir = some u → c.time ≤ u → timeOf (createAll now cs t).dirs c.dir = some u) ∧
    ∀ d, (∀ c ∈ cs, c.dir ≠ d) → timeOf (createAll now cs t).dirs d = timeOf t.dirs d := by
  refine ⟨?_, ?_, ?_, fun d => timeOf_other now cs t d⟩
  · intro c hc hw
    rw [timeOf_all now cs t h c hc]
    simp [bypass, hw]
  · intro c hc u hu hlt
    rw [timeOf_all now cs t h c hc]
    have : bypass c t = false := by
      unfold bypass
      rw [hu]
      simp [hlt]
    rw [this]
    rfl
  · intro c hc hw u hu hle
    rw [timeOf_all now cs t h c hc]
    have : bypass c t = true := by
      unfold bypass
      rw [hu, hw]
      simp [hle]
    rw [this]
    exact hu

/-- a component that is not wrapped, one that is newer than its directory, and one that is older -/
example : let cs : List Comp := [⟨['o'], ['a'], false, 1⟩, ⟨['o'], ['b'], true, 5⟩, ⟨['o'], ['c'], true, 2⟩]
    let t : Tree := ⟨none, [(['o', '_', 'b'], 3), (['o', '_', 'c'], 3)]⟩
    (cs.Pairwise fun a b => a.dir ≠ b.dir) ∧ timeOf t.dirs ['o', '_', 'b'] = some 3 ∧ timeOf t.dirs ['o', '_', 'c'] = some 3 := by
  decide

/-- **C365** (false in general): a wrapped component that has no directory of sources gets none, however new its file is. -/
theorem C365_false (c : Comp) (hw : c.wrapped = true) (t : Tree) (hn : timeOf t.dirs c.dir = none) (now time : Nat) :
    createAll now [{ c with time := time }] t = t := by
  have hb : bypass { c with time := time } t = true := by
    unfold bypass
    have e : ({ c with time := time } : Comp).dir = c.dir := rfl
    rw [e, hn]
    simp [hw]
  unfold createAll createAll
  rw [hb, if_pos rfl]

/-- such a component -/
example : timeOf [(['o', '_', 'b'], 3)] (⟨['o'], ['a'], true, 9⟩ : Comp).dir = none := by
  decide

end Verif.CmakeSrc
