import Verif.Spec.Group
/-!
Helper lemmas for groups of components.
-/

namespace Verif.Group
variable {F S : Type} [Field F] [LinearOrder F]

/-- the loop -/
theorem loop_spec {input : Nat} {buf : List (Event F)} : ∀ {cs : List (Member F S)} {s s' : S} {h h' : Heap F}
    {gots : List (List (Event F))}, (∀ c ∈ cs, Discreet input c) → input < h.next → h.get input = buf →
    loop buf.length input cs s h = .ok (s', h', gots) →
    h'.get input = buf ∧ gots = cs.map fun c => Frames.transport origin c.frame (buf.filter fun e => !decide (e.p ≤ 0))
  | [], s, s', h, h', gots, _, _, hb, e => by
    simp only [loop, Except.ok.injEq, Prod.mk.injEq] at e
    obtain ⟨-, rfl, rfl⟩ := e
    exact ⟨hb, rfl⟩
  | c :: cs, s, s', h, h', gots, hd, hi, hb, e => by
    simp only [loop, Buffer.snapshot, hb, le_refl, if_true, List.take_length, bind, Except.bind, Heap.alloc, Heap.set] at e
    split at e
    · simp at e
    · next r er =>
      obtain ⟨s1, h1⟩ := r
      have hne : h.next ≠ input := fun e => by omega
      obtain ⟨k1, k2⟩ := hd c List.mem_cons_self _ _ _ _ _ hne er
      simp only [if_neg hne.symm] at k1
      simp only at e
      split at e
      · simp at e
      · next r' er' =>
        obtain ⟨s2, h2, gots2⟩ := r'
        obtain ⟨i1, i2⟩ := loop_spec (cs := cs) (fun c' hc' => hd c' (List.mem_cons_of_mem _ hc'))
          (show input < h1.next by simp only at k2; omega) (k1.trans hb) er'
        simp only [Except.ok.injEq, Prod.mk.injEq] at e
        obtain ⟨-, rfl, rfl⟩ := e
        refine ⟨i1, ?_⟩
        rw [List.map_cons, i2]

/-- the loop ends if all members do -/
theorem loop_total {input : Nat} {buf : List (Event F)} : ∀ {cs : List (Member F S)} {s : S} {h : Heap F},
    (∀ c ∈ cs, Discreet input c ∧ ∀ s h r, ∃ x, c.process s h r = .ok x) → input < h.next → h.get input = buf →
    ∃ x, loop buf.length input cs s h = .ok x
  | [], s, h, _, _, _ => ⟨_, rfl⟩
  | c :: cs, s, h, hc, hi, hb => by
    simp only [loop, Buffer.snapshot, hb, le_refl, if_true, List.take_length, bind, Except.bind, Heap.alloc, Heap.set]
    obtain ⟨hd, ht⟩ := hc c List.mem_cons_self
    split
    · next er => obtain ⟨x, hx⟩ := ht _ _ _; rw [hx] at er; simp at er
    · next r er =>
      obtain ⟨s1, h1⟩ := r
      have hne : h.next ≠ input := fun e => by omega
      obtain ⟨k1, k2⟩ := hd _ _ _ _ _ hne er
      simp only [if_neg hne.symm] at k1
      obtain ⟨x, hx⟩ := loop_total (cs := cs) (s := s1) (fun c' hc' => hc c' (List.mem_cons_of_mem _ hc'))
          (show input < h1.next by simp only at k2; omega) (k1.trans hb)
      simp only [hx]
      exact ⟨_, rfl⟩

end Verif.Group
