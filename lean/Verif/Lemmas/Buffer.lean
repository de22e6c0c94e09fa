import Verif.Model.Buffer
import Mathlib.Data.List.Perm.Basic
/-! Helper lemmas about buffers. -/

namespace Verif.Buffer
variable {E σ : Type}

/-- run a scatterer over a list in order, collecting the scattered events -/
def scatterAll (scatter : σ → E → σ × E) : σ → List E → σ × List E
  | s, [] => (s, [])
  | s, e :: l =>
    let (s', e') := scatter s e
    let (s'', l') := scatterAll scatter s' l
    (s'', e' :: l')

theorem processLoop_spec (absorbed : E → Bool) (scatter : σ → E → σ × E) :
    ∀ (n : Nat) (B : List E), B.length = n → ∀ (s : σ) (A C : List E),
    ∃ order C', order.Perm B ∧
      (processLoop absorbed scatter s (A ++ B ++ C) A.length (A.length + B.length)) =
        ((scatterAll scatter s order).1,
          A ++ (scatterAll scatter s order).2.filter (fun e => !absorbed e) ++ C',
          A.length + ((scatterAll scatter s order).2.filter (fun e => !absorbed e)).length) := by
  intro n
  induction n with
  | zero =>
    intro B hB s A C
    rw [List.length_eq_zero_iff] at hB
    subst hB
    refine ⟨[], C, .nil, ?_⟩
    rw [processLoop]
    simp [scatterAll]
  | succ n ih =>
    intro B hB s A C
    cases B with
    | nil => simp at hB
    | cons b B =>
      simp only [List.length_cons, Nat.add_right_cancel_iff] at hB
      rw [processLoop]
      have h1 : A.length < A.length + (b :: B).length := by simp
      have h2 : (A ++ b :: B ++ C)[A.length]? = some b := by simp
      simp only [h1, dif_pos, h2]
      generalize hsc : scatter s b = sc
      obtain ⟨s', b'⟩ := sc
      have h3 : (A ++ b :: B ++ C).set A.length b' = A ++ b' :: B ++ C := by
        simp
      simp only [h3]
      by_cases hab : absorbed b' = true
      · simp only [hab, if_true]
        rcases List.eq_nil_or_concat B with hBnil | ⟨B', l, hB'⟩
        · subst hBnil
          have h4 : (A ++ b' :: [] ++ C)[A.length + (b :: ([] : List E)).length - 1]? = some b' := by simp
          simp only [h4]
          have h5 : (((A ++ b' :: [] ++ C).set A.length b').set (A.length + (b :: ([] : List E)).length - 1) b') =
              A ++ [] ++ (b' :: C) := by simp
          rw [h5]
          obtain ⟨order, C', hp, he⟩ := ih [] (by simpa using hB) s' A (b' :: C)
          obtain rfl : order = [] := hp.eq_nil
          refine ⟨[b], C', .refl _, ?_⟩
          simp only [List.length_nil, Nat.add_zero, List.length_cons, Nat.zero_add, Nat.add_sub_cancel] at he ⊢
          rw [he]
          simp [scatterAll, hsc, hab]
        · have hB' : B = B' ++ [l] := by simpa using hB'
          subst hB'
          have hlen : A.length + (b :: (B' ++ [l])).length - 1 = A.length + (B'.length + 1) := by simp
          have h4 : (A ++ b' :: (B' ++ [l]) ++ C)[A.length + (b :: (B' ++ [l])).length - 1]? = some l := by
            rw [hlen]
            simp
          simp only [h4]
          have h5 : (((A ++ b' :: (B' ++ [l]) ++ C).set A.length l).set (A.length + (b :: (B' ++ [l])).length - 1) b') =
              A ++ (l :: B') ++ (b' :: C) := by
            rw [hlen]
            simp
          rw [h5]
          obtain ⟨order, C', hp, he⟩ := ih (l :: B') (by simpa using hB) s' A (b' :: C)
          refine ⟨b :: order, C', ?_, ?_⟩
          · refine List.Perm.cons b (hp.trans ?_)
            exact (List.perm_append_singleton l B').symm
          · have hn : A.length + (b :: (B' ++ [l])).length - 1 = A.length + (l :: B').length := by simp
            rw [hn, he]
            simp [scatterAll, hsc, hab]
      · simp only [hab]
        obtain ⟨order, C', hp, he⟩ := ih B hB s' (A ++ [b']) C
        refine ⟨b :: order, C', hp.cons b, ?_⟩
        have e1 : A ++ b' :: B ++ C = (A ++ [b']) ++ B ++ C := by simp
        have e2 : A.length + 1 = (A ++ [b']).length := by simp
        have e3 : A.length + (b :: B).length = (A ++ [b']).length + B.length := by simp; omega
        rw [e1, e2, e3]
        simp only [Bool.false_eq_true, if_false]
        rw [he]
        simp only [scatterAll, hsc]
        have hab' : (!absorbed b') = true := by simp [hab]
        simp [hab]
        omega

theorem processM_foldl (absorbed : E → Bool) (scatterM : σ → E → σ × List E) (l : List E) :
    ∀ (s : σ) (acc : List E),
    (l.foldl (fun (acc : σ × List E) ev =>
      let (s', scattered) := scatterM acc.1 ev
      (s', acc.2 ++ scattered.filter (fun e => !absorbed e))) (s, acc)) =
    ((processM absorbed scatterM s l).1, acc ++ (processM absorbed scatterM s l).2) := by
  induction l with
  | nil => intro s acc; simp [processM]
  | cons e l ih =>
    intro s acc
    simp only [List.foldl_cons, processM]
    rw [ih, ih]
    simp

end Verif.Buffer
