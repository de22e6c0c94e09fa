import Verif.Model.WorkDir
/-! Helper lemmas for the work directory transition system. -/

namespace Verif.WorkDir

/-- After all checks: every worker in `ws` runs, and all its outputs exist. -/
def Inv (ws : List Nat) (s : State) : Prop :=
  ∀ i ∈ ws, ∃ k, s.pc i = .running k ∧ ∀ j, j < k → (i, j) ∈ s.dir.getD []

theorem step_pc_other (ov : Bool) (s : State) (i j : Nat) (h : j ≠ i) : (step ov s i).pc j = s.pc j := by
  unfold step
  split
  · split
    · simp [State.setPc, h]
    · split <;> simp [State.setPc, h]
  · simp [State.setPc, h]
  · simp [State.setPc, h]
  · rfl

theorem step_running (ov : Bool) (s : State) (i k : Nat) (h : s.pc i = .running k) :
    (step ov s i).pc i = .running (k + 1) ∧ (step ov s i).dir = some ((i, k) :: s.dir.getD []) := by
  simp [step, h, State.setPc]

theorem Inv.step (ov : Bool) (ws : List Nat) (s : State) (hI : Inv ws s) (i : Nat) (hi : i ∈ ws) :
    Inv ws (step ov s i) := by
  obtain ⟨k, hk, ho⟩ := hI i hi
  obtain ⟨h1, h2⟩ := step_running ov s i k hk
  intro j hj
  by_cases hji : j = i
  · subst hji
    refine ⟨k + 1, h1, ?_⟩
    intro m hm
    rw [h2]
    simp only [Option.getD_some, List.mem_cons, Prod.mk.injEq, true_and]
    by_cases hmk : m = k
    · exact Or.inl hmk
    · exact Or.inr (ho m (by omega))
  · obtain ⟨k', hk', ho'⟩ := hI j hj
    refine ⟨k', by rw [step_pc_other ov s i j hji, hk'], ?_⟩
    intro m hm
    rw [h2]
    exact List.mem_cons_of_mem _ (ho' m hm)

theorem Inv.run (ov : Bool) (ws : List Nat) (sched : List Nat) : ∀ (s : State), Inv ws s →
    (∀ i ∈ sched, i ∈ ws) → Inv ws (run ov s sched) ∧
      ∀ i k, s.pc i = .running k → (WorkDir.run ov s sched).pc i = .running (k + sched.count i) := by
  induction sched with
  | nil => intro s hI _; exact ⟨hI, fun i k h => by simpa [WorkDir.run] using h⟩
  | cons a sched ih =>
    intro s hI hall
    have hI' := hI.step ov ws s a (hall a (by simp))
    obtain ⟨r1, r2⟩ := ih (WorkDir.step ov s a) hI' (fun i hi => hall i (by simp [hi]))
    refine ⟨r1, ?_⟩
    intro i k hk
    rw [List.count_cons]
    by_cases hia : i = a
    · subst hia
      have := r2 i (k + 1) (step_running ov s i k hk).1
      simp only [WorkDir.run, List.foldl_cons] at this ⊢
      rw [this]; simp; omega
    · have := r2 i k (by rw [step_pc_other ov s a i hia, hk])
      simp only [WorkDir.run, List.foldl_cons] at this ⊢
      rw [this]
      have : (a == i) = false := by simp; exact fun h => hia h.symm
      simp [this]

/-- all checks before any output: nobody fails -/
theorem checks_ok (ov : Bool) (ws : List Nat) : ∀ (s : State), s.dir = none → ws.Nodup →
    (∀ i ∈ ws, s.pc i = .start) →
    (run ov s ws).dir = none ∧ (∀ i ∈ ws, (run ov s ws).pc i = .running 0) ∧
      ∀ i, i ∉ ws → (run ov s ws).pc i = s.pc i := by
  induction ws with
  | nil => intro s h _ _; exact ⟨h, by simp, fun i _ => rfl⟩
  | cons a ws ih =>
    intro s hd hnd hst
    obtain ⟨hna, hnd'⟩ := List.nodup_cons.mp hnd
    have ha : s.pc a = .start := hst a (by simp)
    have hs : step ov s a = s.setPc a (.running 0) := by simp [step, ha, hd]
    have hd' : (step ov s a).dir = none := by rw [hs]; exact hd
    have hst' : ∀ i ∈ ws, (step ov s a).pc i = .start := by
      intro i hi
      rw [step_pc_other ov s a i (by rintro rfl; exact hna hi)]
      exact hst i (by simp [hi])
    obtain ⟨r1, r2, r3⟩ := ih (step ov s a) hd' hnd' hst'
    refine ⟨r1, ?_, ?_⟩
    · intro i hi
      rcases List.mem_cons.mp hi with rfl | hi
      · have := r3 i hna
        simp only [run, List.foldl_cons] at this ⊢
        rw [this, hs]; simp [State.setPc]
      · exact r2 i hi
    · intro i hi
      have hia : i ≠ a := fun h => hi (h ▸ List.mem_cons_self)
      have := r3 i (fun h => hi (List.mem_cons_of_mem _ h))
      simp only [run, List.foldl_cons] at this ⊢
      rw [this, step_pc_other ov s a i hia]

end Verif.WorkDir
