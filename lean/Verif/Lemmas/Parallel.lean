import Verif.Spec.Parallel
import Mathlib.Data.List.Count
import Mathlib.Data.List.Infix
import Mathlib.Data.Finset.Basic
import Mathlib.Algebra.BigOperators.Group.Finset.Basic
import Mathlib.Algebra.Order.BigOperators.Group.Finset
import Mathlib.Tactic.Ring
/-! Helper lemmas for the parallel nodes. -/

namespace Verif.Parallel
open Spec
variable {α : Type} [DecidableEq α]

/-- what holds in every reachable state -/
structure Inv (prog : Nat → List (Op α)) (s : State α) : Prop where
  split : ∀ r, prog r = s.done r ++ s.todo r
  count : ∀ c d t, (s.done c).count (.send d t) = s.mail.count (c, d, t) + (s.done d).count (.recv c t)

theorem inv_start (prog : Nat → List (Op α)) : Inv prog (start prog) :=
  ⟨fun r => by simp [start], fun c d t => by simp [start]⟩

theorem next_split {prog : Nat → List (Op α)} {s : State α} (hs : ∀ r, prog r = s.done r ++ s.todo r)
    {r : Nat} {o : Op α} {rest : List (Op α)} (h : s.todo r = o :: rest) (mail) :
    ∀ q, prog q = (s.next r o rest mail).done q ++ (s.next r o rest mail).todo q := by
  intro q
  by_cases hq : q = r
  · subst hq; simp [State.next, hs q, h]
  · simp [State.next, hq, hs q]

theorem next_count (s : State α) (r : Nat) (o : Op α) (rest : List (Op α)) (mail) (q : Nat) (x : Op α) :
    ((s.next r o rest mail).done q).count x = (s.done q).count x + if q = r ∧ o = x then 1 else 0 := by
  by_cases hq : q = r
  · subst hq; simp [State.next, List.count_append, List.count_singleton]
  · simp [State.next, hq]

theorem inv_step {prog : Nat → List (Op α)} {s s' : State α} (hi : Inv prog s) (h : Step s s') : Inv prog s' := by
  cases h with
  | act h =>
    refine ⟨next_split hi.split h _, fun c d t => ?_⟩
    rw [next_count, next_count]; simpa [State.next] using hi.count c d t
  | @send r d' t' rest h =>
    refine ⟨next_split hi.split h _, fun c d t => ?_⟩
    rw [next_count, next_count]
    have := hi.count c d t
    have e : (if (r, d', t') = (c, d, t) then 1 else 0 : Nat) = if c = r ∧ (Op.send d' t' : Op α) = .send d t then 1 else 0 := by
      congr 1; simp only [Prod.mk.injEq, Op.send.injEq]; apply propext; constructor <;> rintro ⟨a, b, c⟩ <;> exact ⟨a.symm, b, c⟩
    simp only [State.next, List.count_append, List.count_singleton, beq_iff_eq]
    rw [e]
    simp
    omega
  | @recv r c' t' rest h hm =>
    refine ⟨next_split hi.split h _, fun c d t => ?_⟩
    rw [next_count, next_count]
    have := hi.count c d t
    simp only [State.next, List.count_erase]
    have e : (if ((c', r, t') == (c, d, t)) = true then 1 else 0 : Nat) = if d = r ∧ (Op.recv c' t' : Op α) = .recv c t then 1 else 0 := by
      congr 1; simp only [beq_iff_eq, Prod.mk.injEq, Op.recv.injEq]; apply propext
      constructor
      · rintro ⟨a, b, c⟩; exact ⟨b.symm, a, c⟩
      · rintro ⟨a, b, c⟩; exact ⟨b, a.symm, c⟩
    have e2 : (if ((c, d, t) == (c', r, t')) = true then 1 else 0 : Nat) = if ((c', r, t') == (c, d, t)) = true then 1 else 0 := by
      congr 1; simp only [beq_iff_eq]; apply propext; exact eq_comm
    have hpos : (if ((c', r, t') == (c, d, t)) = true then 1 else 0 : Nat) ≤ s.mail.count (c, d, t) := by
      split_ifs with hh
      · rw [beq_iff_eq] at hh; rw [← hh]; exact List.count_pos_iff.mpr hm
      · exact Nat.zero_le _
    rw [e] at hpos
    first | rw [e2, e] | rw [e]
    simp only [reduceCtorEq, and_false, if_false]
    omega

theorem inv_reach {prog : Nat → List (Op α)} {s : State α} (h : Reach Step prog s) : Inv prog s := by
  induction h with
  | refl => exact inv_start prog
  | tail _ h ih => exact inv_step ih h

theorem inv_sync {prog : Nat → List (Op α)} {s : State α} (h : Reach SyncStep prog s) : Inv prog s ∧ s.mail = [] := by
  induction h with
  | refl => exact ⟨inv_start prog, rfl⟩
  | tail _ h ih =>
    obtain ⟨hi, hm⟩ := ih
    cases h with
    | act h => exact ⟨inv_step hi (.act h), hm⟩
    | @meet r d t rest rest' hr h h' =>
      refine ⟨⟨?_, ?_⟩, hm⟩
      · apply next_split (next_split hi.split h _)
        simpa [State.next, Function.update_of_ne hr.symm] using h'
      · intro c d' t'
        rw [next_count, next_count, next_count, next_count]
        have := hi.count c d' t'
        have e : (if c = r ∧ (Op.send d t : Op α) = .send d' t' then 1 else 0 : Nat) =
            if d' = d ∧ (Op.recv r t : Op α) = .recv c t' then 1 else 0 := by
          congr 1; simp only [Op.send.injEq, Op.recv.injEq]; apply propext
          constructor
          · rintro ⟨a, b, c⟩; exact ⟨b.symm, a.symm, c⟩
          · rintro ⟨a, b, c⟩; exact ⟨b.symm, a.symm, c⟩
        rw [e]
        simp [State.next]
        omega

/-! ### order of the operations of one node -/

omit [DecidableEq α] in
theorem before {D T P S : List (Op α)} {y : Op α} (h : D ++ T = P ++ y :: S) (hy : y ∉ P) (hD : y ∈ D) :
    ∀ x ∈ P, x ∈ D := by
  intro x hx
  have hp : P <+: P ++ y :: S := List.prefix_append _ _
  have hd : D <+: P ++ y :: S := ⟨T, h⟩
  rcases List.prefix_or_prefix_of_prefix hp hd with h' | h'
  · exact h'.subset hx
  · exact absurd (h'.subset hD) hy

/-- a received message has been sent -/
theorem sent_of_recv {prog : Nat → List (Op α)} {s : State α} (hi : Inv prog s) {c d t : Nat}
    (h : Op.recv c t ∈ s.done d) : Op.send d t ∈ s.done c := by
  have := hi.count c d t
  have h1 := List.count_pos_iff.mpr h
  exact List.count_pos_iff.mp (by omega)

theorem recv_of_sent {prog : Nat → List (Op α)} {s : State α} (hi : Inv prog s) (hm : s.mail = []) {c d t : Nat}
    (h : Op.send d t ∈ s.done c) : Op.recv c t ∈ s.done d := by
  have := hi.count c d t
  have h1 := List.count_pos_iff.mpr h
  rw [hm] at this
  exact List.count_pos_iff.mp (by simp at this; omega)

/-! ### sessions -/

omit [DecidableEq α] in
theorem barrier_root {n : Nat} (hn : 2 ≤ n) (c : Nat) :
    barrier α n 0 c = ((List.range' 1 (n - 1)).map fun i => .send i c, c + 1) := by
  simp [barrier, newChannel, Nat.not_lt.mpr hn]

omit [DecidableEq α] in
theorem barrier_other {n r : Nat} (hn : 2 ≤ n) (hr : r ≠ 0) (c : Nat) :
    barrier α n r c = ([.recv 0 c], c + 1) := by
  simp [barrier, newChannel, Nat.not_lt.mpr hn, hr]

omit [DecidableEq α] in
theorem barrier_snd {n r : Nat} (hn : 2 ≤ n) (c : Nat) : (barrier α n r c).2 = c + 1 := by
  by_cases hr : r = 0
  · subst hr; rw [barrier_root hn]
  · rw [barrier_other hn hr]

theorem session_succ {n r : Nat} (hn : 2 ≤ n) (c k m : Nat) :
    session n r c k (m + 1) =
      .act (.enter k) :: ((barrier Mark n r c).1 ++ .act (.leave k) :: session n r (c + 1) (k + 1) m) := by
  simp [session, barrier_snd hn]

theorem session_split {n : Nat} (hn : 2 ≤ n) (r : Nat) (j : Nat) : ∀ (c k m : Nat), j < m →
    session n r c k m = session n r c k j ++
      (.act (.enter (k + j)) :: ((barrier Mark n r (c + j)).1 ++ .act (.leave (k + j)) :: session n r (c + j + 1) (k + j + 1) (m - j - 1))) := by
  induction j with
  | zero =>
    intro c k m hm
    obtain ⟨m, rfl⟩ : ∃ m', m = m' + 1 := ⟨m - 1, by omega⟩
    rw [session_succ hn]; simp [session]
  | succ j ih =>
    intro c k m hm
    obtain ⟨m, rfl⟩ : ∃ m', m = m' + 1 := ⟨m - 1, by omega⟩
    rw [session_succ hn, session_succ hn, ih (c + 1) (k + 1) m (by omega)]
    have e1 : c + 1 + j = c + (j + 1) := by omega
    have e2 : k + 1 + j = k + (j + 1) := by omega
    have e3 : m - j - 1 = m + 1 - (j + 1) - 1 := by omega
    rw [e1, e2, e3]
    simp

theorem mem_session {n : Nat} (hn : 2 ≤ n) (r : Nat) (m : Nat) : ∀ (c k : Nat) (x : Op Mark), x ∈ session n r c k m →
    ∃ j < m, x = .act (.enter (k + j)) ∨ x = .act (.leave (k + j)) ∨ x ∈ (barrier Mark n r (c + j)).1 := by
  induction m with
  | zero => intro c k x h; simp [session] at h
  | succ m ih =>
    intro c k x h
    rw [session_succ hn] at h
    simp only [List.mem_cons, List.mem_append] at h
    rcases h with h | h | h | h
    · exact ⟨0, by omega, .inl (by simpa using h)⟩
    · exact ⟨0, by omega, .inr (.inr (by simpa using h))⟩
    · exact ⟨0, by omega, .inr (.inl (by simpa using h))⟩
    · obtain ⟨j, hj, h⟩ := ih _ _ _ h
      refine ⟨j + 1, by omega, ?_⟩
      have e1 : c + 1 + j = c + (j + 1) := by omega
      have e2 : k + 1 + j = k + (j + 1) := by omega
      rwa [e1, e2] at h

omit [DecidableEq α] in
theorem mem_barrier {n r : Nat} (hn : 2 ≤ n) {c : Nat} {x : Op α} (h : x ∈ (barrier α n r c).1) :
    (r = 0 ∧ ∃ i, 1 ≤ i ∧ i < n ∧ x = .send i c) ∨ (r ≠ 0 ∧ x = .recv 0 c) := by
  by_cases hr : r = 0
  · subst hr; rw [barrier_root hn] at h
    simp only [List.mem_map, List.mem_range'_1] at h
    obtain ⟨i, ⟨h1, h2⟩, rfl⟩ := h
    exact .inl ⟨rfl, i, h1, by omega, rfl⟩
  · rw [barrier_other hn hr] at h
    exact .inr ⟨hr, by simpa using h⟩

/-- in a session the mark `leave (k+j)` comes after everything of the `j`-th call -/
theorem leave_after {n : Nat} (hn : 2 ≤ n) {r c k m j : Nat} {D T : List (Op Mark)} (hs : session n r c k m = D ++ T)
    (hD : Op.act (.leave (k + j)) ∈ D) :
    j < m ∧ Op.act (.enter (k + j)) ∈ D ∧ ∀ x ∈ (barrier Mark n r (c + j)).1, x ∈ D := by
  have hj : j < m := by
    have : Op.act (.leave (k + j)) ∈ session n r c k m := by rw [hs]; exact List.mem_append_left _ hD
    obtain ⟨i, hi, h | h | h⟩ := mem_session hn r m c k _ this
    · simp at h
    · simp at h; omega
    · rcases mem_barrier hn h with ⟨_, _, _, _, h⟩ | ⟨_, h⟩ <;> simp at h
  rw [session_split hn r j c k m hj] at hs
  have hs' : D ++ T = (session n r c k j ++ .act (.enter (k + j)) :: (barrier Mark n r (c + j)).1) ++
      .act (.leave (k + j)) :: session n r (c + j + 1) (k + j + 1) (m - j - 1) := by rw [← hs]; simp
  have hnot : Op.act (.leave (k + j)) ∉ session n r c k j ++ .act (.enter (k + j)) :: (barrier Mark n r (c + j)).1 := by
    simp only [List.mem_append, List.mem_cons, not_or]
    refine ⟨?_, by simp, ?_⟩
    · intro h
      obtain ⟨i, hi, h | h | h⟩ := mem_session hn r j c k _ h
      · simp at h
      · simp at h; omega
      · rcases mem_barrier hn h with ⟨_, _, _, _, h⟩ | ⟨_, h⟩ <;> simp at h
    · intro h
      rcases mem_barrier hn h with ⟨_, _, _, _, h⟩ | ⟨_, h⟩ <;> simp at h
  have := before hs' hnot hD
  exact ⟨hj, this _ (by simp), fun x hx => this x (by simp [hx])⟩

/-- in a session of node 0 the messages of the `j`-th call come after `enter (k+j)` -/
theorem send_after {n : Nat} (hn : 2 ≤ n) {c k m j i : Nat} {D T : List (Op Mark)} (hj : j < m)
    (hs : session n 0 c k m = D ++ T) (hD : Op.send i (c + j) ∈ D) : Op.act (.enter (k + j)) ∈ D := by
  rw [session_split hn 0 j c k m hj] at hs
  have hnotP : (Op.send i (c + j) : Op Mark) ∉ session n 0 c k j := by
    intro h
    obtain ⟨l, hl, h | h | h⟩ := mem_session hn 0 j c k _ h
    · simp at h
    · simp at h
    · rcases mem_barrier hn h with ⟨_, _, _, _, h⟩ | ⟨h', _⟩
      · simp at h; omega
      · exact h' rfl
  -- D is longer than the session up to j and its mark
  have hp : (session n 0 c k j ++ [.act (.enter (k + j))]) <+: D ++ T := by
    rw [← hs]
    exact ⟨(barrier Mark n 0 (c + j)).1 ++ .act (.leave (k + j)) :: session n 0 (c + j + 1) (k + j + 1) (m - j - 1), by simp⟩
  rcases List.prefix_or_prefix_of_prefix hp (List.prefix_append D T) with h | h
  · exact h.subset (by simp)
  · have := h.subset hD
    simp only [List.mem_append, List.mem_singleton, reduceCtorEq, or_false] at this
    exact absurd this hnotP

/-! ### a node that only sends runs without the others -/

theorem solo (r : Nat) (l : List (Op α)) : (∀ o ∈ l, ∀ c t, o ≠ .recv c t) → ∀ (s : State α) (rest : List (Op α)),
    s.todo r = l ++ rest → ∃ s', Relation.ReflTransGen Step s s' ∧ s'.todo = Function.update s.todo r rest ∧
      s'.done = Function.update s.done r (s.done r ++ l) ∧ (∀ x ∈ s.mail, x ∈ s'.mail) ∧
      ∀ d t, Op.send d t ∈ l → (r, d, t) ∈ s'.mail := by
  induction l with
  | nil =>
    intro _ s rest h
    exact ⟨s, .refl, by rw [← List.nil_append rest, ← h, Function.update_eq_self], by simp, fun _ h => h, by simp⟩
  | cons o l ih =>
    intro hl s rest h
    have key : ∀ mail, (∀ x ∈ s.mail, x ∈ mail) → (∀ d t, o = .send d t → (r, d, t) ∈ mail) →
        Step s (s.next r o (l ++ rest) mail) →
        ∃ s', Relation.ReflTransGen Step s s' ∧ s'.todo = Function.update s.todo r rest ∧
          s'.done = Function.update s.done r (s.done r ++ o :: l) ∧ (∀ x ∈ s.mail, x ∈ s'.mail) ∧
          ∀ d t, Op.send d t ∈ o :: l → (r, d, t) ∈ s'.mail := by
      intro mail hmail hnew hstep
      obtain ⟨s', h1, h2, h3, h4, h5⟩ := ih (fun x hx => hl x (by simp [hx])) (s.next r o (l ++ rest) mail) rest
        (by simp [State.next])
      refine ⟨s', .head hstep h1, ?_, ?_, fun x hx => h4 x (by simpa [State.next] using hmail x hx), ?_⟩
      · rw [h2]; simp [State.next]
      · rw [h3]; simp [State.next]
      · intro d t hdt
        rcases List.mem_cons.mp hdt with e | e
        · exact h4 _ (by simpa [State.next] using hnew d t e.symm)
        · exact h5 d t e
    cases o with
    | act a => exact key s.mail (fun _ h => h) (by simp) (.act (by simpa using h))
    | send d t =>
      exact key (s.mail ++ [(r, d, t)]) (fun x hx => by simp [hx]) (by simp) (.send (by simpa using h))
    | recv c t => exact absurd rfl (hl (.recv c t) (by simp) c t)

theorem root_no_recv {n : Nat} (hn : 2 ≤ n) (c : Nat) : ∀ o ∈ (barrier α n 0 c).1, ∀ a t, o ≠ .recv a t := by
  intro o ho a t
  rcases mem_barrier hn ho with ⟨_, i, _, _, rfl⟩ | ⟨h, _⟩
  · simp
  · exact absurd rfl h

/-! ### no node is stuck -/

theorem session_nodup {n : Nat} (hn : 2 ≤ n) (r m : Nat) : ∀ c k, (session n r c k m).Nodup := by
  induction m with
  | zero => intro c k; simp [session]
  | succ m ih =>
    intro c k
    rw [session_succ hn]
    have hb : (barrier Mark n r c).1.Nodup := by
      by_cases hr : r = 0
      · subst hr; rw [barrier_root hn]
        refine List.Nodup.map ?_ List.nodup_range'
        intro a b h; simpa using h
      · rw [barrier_other hn hr]; simp
    have notb : ∀ a, Op.act a ∉ (barrier Mark n r c).1 := by
      intro a h
      rcases mem_barrier hn h with ⟨_, _, _, _, h⟩ | ⟨_, h⟩ <;> simp at h
    have nots : ∀ x ∈ session n r (c + 1) (k + 1) m, x ≠ .act (.enter k) ∧ x ≠ .act (.leave k) ∧ x ∉ (barrier Mark n r c).1 := by
      intro x hx
      obtain ⟨j, hj, h | h | h⟩ := mem_session hn r m _ _ _ hx
      · subst h; refine ⟨by simp; omega, by simp, notb _⟩
      · subst h; refine ⟨by simp, by simp; omega, notb _⟩
      · rcases mem_barrier hn h with ⟨h0, i, _, _, rfl⟩ | ⟨h0, rfl⟩
        · refine ⟨by simp, by simp, fun h' => ?_⟩
          rcases mem_barrier hn h' with ⟨_, i', _, _, h⟩ | ⟨_, h⟩
          · simp at h; omega
          · simp at h
        · refine ⟨by simp, by simp, fun h' => ?_⟩
          rcases mem_barrier hn h' with ⟨_, i', _, _, h⟩ | ⟨_, h⟩
          · simp at h
          · simp at h; omega
    refine List.nodup_cons.mpr ⟨?_, ?_⟩
    · simp only [List.mem_append, List.mem_cons, not_or]
      exact ⟨notb _, by simp, fun h => (nots _ h).1 rfl⟩
    · refine List.nodup_append'.mpr ⟨hb, List.nodup_cons.mpr ⟨fun h => (nots _ h).2.1 rfl, ih _ _⟩, ?_⟩
      intro x hx hx'
      rcases List.mem_cons.mp hx' with h | h
      · subst h; exact notb _ hx
      · exact (nots _ h).2.2 hx

theorem live_session {n : Nat} (hn : 2 ≤ n) (c m : Nat) :
    Live Step n (nodes n fun r => session n r c 0 m) := by
  intro s hs ⟨r, hr, hf⟩
  have hi := inv_reach hs
  have e0 : nodes n (fun r => session n r c 0 m) 0 = session n 0 c 0 m := by simp [nodes]; omega
  have er : nodes n (fun r => session n r c 0 m) r = session n r c 0 m := by simp [nodes, hr]
  have h0 := hi.split 0
  have h1 := hi.split r
  rw [e0] at h0; rw [er] at h1
  cases ht : s.todo 0 with
  | cons o rest =>
    have hmem : o ∈ session n 0 c 0 m := by rw [h0, ht]; simp
    cases o with
    | act a => exact ⟨_, .act ht⟩
    | send d t => exact ⟨_, .send ht⟩
    | recv a t =>
      obtain ⟨j, hj, h | h | h⟩ := mem_session hn 0 m _ _ _ hmem
      · simp at h
      · simp at h
      · exact absurd rfl (root_no_recv hn _ _ h a t)
  | nil =>
    rw [ht, List.append_nil] at h0
    cases hq : s.todo r with
    | nil => exact absurd hq hf
    | cons o rest =>
      cases o with
      | act a => exact ⟨_, .act hq⟩
      | send d t => exact ⟨_, .send hq⟩
      | recv a t =>
        have hmem : Op.recv a t ∈ session n r c 0 m := by rw [h1, hq]; simp
        obtain ⟨j, hj, h | h | h⟩ := mem_session hn r m _ _ _ hmem
        · simp at h
        · simp at h
        · rcases mem_barrier hn h with ⟨_, _, _, _, h⟩ | ⟨hr0, h⟩
          · simp at h
          · simp only [Op.recv.injEq] at h
            obtain ⟨rfl, rfl⟩ := h
            have hnd := session_nodup hn r m c 0
            rw [h1, hq] at hnd
            have hzero : (s.done r).count (Op.recv 0 (c + j)) = 0 := by
              refine List.count_eq_zero.mpr fun hm => ?_
              exact (List.nodup_append'.mp hnd).2.2 hm (by simp)
            have hsend : Op.send r (c + j) ∈ s.done 0 := by
              rw [← h0, session_split hn 0 j c 0 m hj, barrier_root hn]
              simp only [List.mem_append, List.mem_cons, List.mem_map, List.mem_range'_1]
              exact .inr (.inr (.inl ⟨r, ⟨by omega, by omega⟩, rfl⟩))
            have hcount := hi.count 0 r (c + j)
            have := List.count_pos_iff.mpr hsend
            have hmail : (0, r, c + j) ∈ s.mail := List.count_pos_iff.mp (by omega)
            exact ⟨_, .recv hq hmail⟩

/-! ### every run ends -/

/-- operations left -/
def left (n : Nat) (s : State α) : Nat := ∑ r ∈ Finset.range n, (s.todo r).length

omit [DecidableEq α] in
theorem left_next {n : Nat} {s : State α} {r : Nat} (hr : r < n) {o : Op α} {rest : List (Op α)} (h : s.todo r = o :: rest) (mail) :
    left n (s.next r o rest mail) + 1 = left n s := by
  unfold left
  rw [← Finset.add_sum_erase _ _ (Finset.mem_range.mpr hr), ← Finset.add_sum_erase (Finset.range n) (fun r => (s.todo r).length) (Finset.mem_range.mpr hr)]
  have : ∑ x ∈ (Finset.range n).erase r, ((s.next r o rest mail).todo x).length = ∑ x ∈ (Finset.range n).erase r, (s.todo x).length := by
    refine Finset.sum_congr rfl fun x hx => ?_
    simp [State.next, Function.update_of_ne (Finset.ne_of_mem_erase hx)]
  rw [this]
  simp [State.next, h]
  omega

theorem left_step {n : Nat} {f : Nat → List (Op α)} {s s' : State α} (hi : Inv (nodes n f) s) (h : Step s s') :
    left n s' + 1 = left n s := by
  have hlt : ∀ {r : Nat} {o : Op α} {rest : List (Op α)}, s.todo r = o :: rest → r < n := by
    intro r o rest h
    by_contra hr
    have := hi.split r
    simp [nodes, hr] at this
    simp [h] at this
  cases h with
  | act h => exact left_next (hlt h) h _
  | send h => exact left_next (hlt h) h _
  | recv h _ => exact left_next (hlt h) h _

end Verif.Parallel
