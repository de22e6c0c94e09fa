import Verif.Lemmas.Parallel
/-! Theorems on the synchronization of parallel nodes (C249-C253). -/

namespace Verif.Parallel
open Spec

/-! ### C249 -/

/-- No node other than 0 leaves a barrier before node 0 has entered it, with or
without buffered messages.  Missing: the same for the nodes other than 0 (false,
see below). -/
theorem C249_partial (n c m : Nat) (hn : 2 ≤ n) (s : State Mark)
    (hs : Reach Step (nodes n fun r => session n r c 0 m) s ∨ Reach SyncStep (nodes n fun r => session n r c 0 m) s)
    (r k : Nat) (hr : r ≠ 0) (h : Did s r (.leave k)) : Did s 0 (.enter k) ∧ Did s r (.enter k) := by
  have hi : Inv (nodes n fun r => session n r c 0 m) s := hs.elim inv_reach fun h => (inv_sync h).1
  have hrn : r < n := by
    by_contra hr'
    have := hi.split r
    simp [nodes, hr'] at this
    simp [Did, this.1] at h
  have h1 := hi.split r
  have h0 := hi.split 0
  simp only [nodes, hrn, if_true, show 0 < n by omega] at h1 h0
  obtain ⟨hk, he, hb⟩ := leave_after hn h1 (j := k) (by simpa [Did] using h)
  have hrecv : Op.recv 0 (c + k) ∈ s.done r := hb _ (by rw [barrier_other hn hr]; simp)
  have hsend := sent_of_recv hi hrecv
  exact ⟨by simpa [Did] using send_after hn hk h0 hsend, by simpa [Did] using he⟩

/-- Node 0 can go through all its barriers while no other node has done anything. -/
theorem C249_false (n c m : Nat) (hn : 2 ≤ n) : ∃ s, Reach Step (nodes n fun r => session n r c 0 m) s ∧
    (∀ k < m, Did s 0 (.leave k)) ∧ ∀ q ≠ 0, s.done q = [] := by
  have hno : ∀ o ∈ session n 0 c 0 m, ∀ a t, o ≠ .recv a t := by
    intro o ho a t h
    obtain ⟨j, hj, h' | h' | h'⟩ := mem_session hn 0 m _ _ _ ho
    · simp [h] at h'
    · simp [h] at h'
    · exact root_no_recv hn _ _ h' a t h
  obtain ⟨s', h1, h2, h3, -, -⟩ := solo 0 (session n 0 c 0 m) hno (start (nodes n fun r => session n r c 0 m)) []
    (by simp [start, nodes]; omega)
  refine ⟨s', h1, fun k hk => ?_, fun q hq => by simp [h3, hq, start]⟩
  unfold Did
  rw [h3, session_split hn 0 k c 0 m hk]
  simp [start]

/-- hence `barrier` is not a barrier -/
theorem C249_not_barrier_false (n c m : Nat) (hn : 2 ≤ n) (hm : 1 ≤ m) :
    ¬ Barrier Step n (nodes n fun r => session n r c 0 m) := by
  intro h
  obtain ⟨s, hs, h0, hq⟩ := C249_false n c m hn
  have := h s hs 0 0 (by omega) 1 (by omega) (h0 0 hm)
  simp [Did, hq] at this

/-- With three or more nodes it is not a barrier even if `send` waits for the receiver. -/
theorem C249_sync_false (n c : Nat) (hn : 3 ≤ n) : ¬ Barrier SyncStep n (nodes n fun r => session n r c 0 1) := by
  obtain ⟨n, rfl⟩ : ∃ k, n = k + 3 := ⟨n - 3, by omega⟩
  intro h
  let p := nodes (n + 3) fun r => session (n + 3) r c 0 1
  have p0 : p 0 = .act (.enter 0) :: .send 1 c :: ((List.range' 2 (n + 1)).map (fun i => .send i c) ++ [.act (.leave 0)]) := by
    simp [p, nodes, session_succ (show 2 ≤ n + 3 by omega), barrier_root (show 2 ≤ n + 3 by omega), session, List.range'_succ]
  have p1 : p 1 = [.act (.enter 0), .recv 0 c, .act (.leave 0)] := by
    simp [p, nodes, session_succ (show 2 ≤ n + 3 by omega), barrier_other (show 2 ≤ n + 3 by omega), session]
  generalize hL : (List.range' 2 (n + 1)).map (fun i => (Op.send i c : Op Mark)) ++ [.act (.leave 0)] = L at p0
  let u1 := (start p).next 0 (.act (.enter 0)) (.send 1 c :: L) (start p).mail
  let u2 := u1.next 1 (.act (.enter 0)) [.recv 0 c, .act (.leave 0)] u1.mail
  let u3 := (u2.next 0 (.send 1 c) L u2.mail).next 1 (.recv 0 c) [.act (.leave 0)] u2.mail
  have s1 : SyncStep (start p) u1 := .act (by simpa [start] using p0)
  have s2 : SyncStep u1 u2 := .act (by simpa [u1, start, State.next] using p1)
  have s3 : SyncStep u2 u3 := .meet (by omega) (by simp [u2, u1, State.next]) (by simp [u2, u1, State.next])
  have s4 : SyncStep u3 (u3.next 1 (.act (.leave 0)) [] u3.mail) := .act (by simp [u3, State.next])
  have := h _ (Relation.ReflTransGen.tail (.tail (.tail (.tail .refl s1) s2) s3) s4) 0 1 (by omega) 2 (by omega)
    (by simp [Did, State.next])
  simp [Did, State.next, start, u3, u2, u1] at this

/-- With two nodes and a `send` that waits for the receiver it is one. -/
theorem C249_two (c m : Nat) : Barrier SyncStep 2 (nodes 2 fun r => session 2 r c 0 m) := by
  intro s hs k r hr q hq h
  obtain ⟨hi, hm⟩ := inv_sync hs
  have h1 := hi.split 1
  have h0 := hi.split 0
  simp only [nodes, show 1 < 2 by omega, if_true, show 0 < 2 by omega] at h1 h0
  have both : Did s 0 (.enter k) ∧ Did s 1 (.enter k) := by
    have : r = 0 ∨ r = 1 := by omega
    rcases this with rfl | rfl
    · obtain ⟨hk, he, hb⟩ := leave_after (le_refl 2) h0 (j := k) (by simpa [Did] using h)
      have hrecv := recv_of_sent hi hm (hb (.send 1 (c + k)) (by rw [barrier_root (le_refl 2)]; simp))
      refine ⟨by simpa [Did] using he, ?_⟩
      -- node 1 received after it entered
      rw [session_split (le_refl 2) 1 k c 0 m hk, barrier_other (le_refl 2) (by omega)] at h1
      have h1' : s.done 1 ++ s.todo 1 = (session 2 1 c 0 k ++ [.act (.enter (0 + k))]) ++
          .recv 0 (c + k) :: (.act (.leave (0 + k)) :: session 2 1 (c + k + 1) (0 + k + 1) (m - k - 1)) := by
        rw [← h1]; simp
      have hn : (Op.recv 0 (c + k) : Op Mark) ∉ session 2 1 c 0 k ++ [.act (.enter (0 + k))] := by
        simp only [List.mem_append, List.mem_singleton, reduceCtorEq, or_false]
        intro h
        obtain ⟨i, hi, h | h | h⟩ := mem_session (le_refl 2) 1 k c 0 _ h
        · simp at h
        · simp at h
        · rcases mem_barrier (le_refl 2) h with ⟨h', _⟩ | ⟨_, h⟩
          · simp at h'
          · simp at h; omega
      simpa [Did] using before h1' hn hrecv (.act (.enter (0 + k))) (by simp)
    · exact C249_partial 2 c m (le_refl 2) s (.inr hs) 1 k (by omega) h
  have : q = 0 ∨ q = 1 := by omega
  rcases this with rfl | rfl
  · exact both.1
  · exact both.2

/-- hypotheses: two nodes and two barriers; the programs are what one would write down -/
example : session 2 0 10000 0 2 = [.act (.enter 0), .send 1 10000, .act (.leave 0), .act (.enter 1), .send 1 10001, .act (.leave 1)] ∧
    session 2 1 10000 0 1 = [.act (.enter 0), .recv 0 10000, .act (.leave 0)] := by decide

/-- and node 1 does leave: the hypothesis of `C249_partial` is met -/
example : ∃ s, Reach Step (nodes 2 fun r => session 2 r 7 0 1) s ∧ Did s 1 (.leave 0) := by
  obtain ⟨s', h1, h2, h3, -, h5⟩ := solo 0 (session 2 0 7 0 1) (by
    have : session 2 0 7 0 1 = [.act (.enter 0), .send 1 7, .act (.leave 0)] := by decide
    simp [this]) (start (nodes 2 fun r => session 2 r 7 0 1)) [] (by decide)
  have e : s'.todo 1 = [.act (.enter 0), .recv 0 7, .act (.leave 0)] := by rw [h2]; decide
  have hmail := h5 1 7 (by decide)
  have a1 := Step.act (s := s') (r := 1) e
  have a2 := Step.recv (s := s'.next 1 (.act (.enter 0)) [.recv 0 7, .act (.leave 0)] s'.mail) (r := 1) (c := 0) (t := 7)
    (rest := [.act (.leave 0)]) (by simp [State.next]) (by simpa [State.next] using hmail)
  have a3 := Step.act (s := (s'.next 1 (.act (.enter 0)) [.recv 0 7, .act (.leave 0)] s'.mail).next 1 (.recv 0 7) [.act (.leave 0)]
    (s'.mail.erase (0, 1, 7))) (r := 1) (a := .leave 0) (rest := []) (by simp [State.next])
  exact ⟨_, Relation.ReflTransGen.tail (.tail (.tail h1 a1) a2) a3, by simp [Did, State.next]⟩

/-! ### C250 -/

/-- Nodes that call `barrier` equally often never get stuck. -/
theorem C250_live (n c m : Nat) (hn : 2 ≤ n) : Live Step n (nodes n fun r => session n r c 0 m) :=
  live_session hn c m

/-- No run takes more steps than there are operations. -/
theorem C250_bound {α : Type} [DecidableEq α] (n : Nat) (f : Nat → List (Op α)) (k : Nat) (s : State α)
    (h : Run Step k (start (nodes n f)) s) : k ≤ ∑ r ∈ Finset.range n, (f r).length := by
  have key : ∀ (k : Nat) (u v : State α), Inv (nodes n f) u → Run Step k u v → k ≤ left n u := by
    intro k u v hu hr
    induction hr with
    | nil => exact Nat.zero_le _
    | cons h _ ih =>
      have := left_step hu h
      have := ih (inv_step hu h)
      omega
  refine (key k _ _ (inv_start _) h).trans (le_of_eq ?_)
  unfold left
  refine Finset.sum_congr rfl fun r hr => ?_
  simp [start, nodes, Finset.mem_range.mp hr]

/-- So however the run went so far, it can be finished. -/
theorem C250_finish (n c m : Nat) (hn : 2 ≤ n) (s : State Mark) (hs : Reach Step (nodes n fun r => session n r c 0 m) s) :
    ∃ s', Relation.ReflTransGen Step s s' ∧ (∀ r < n, Finished s' r) ∧ ∀ r < n, ∀ k < m, Did s' r (.leave k) := by
  have key : ∀ (N : Nat) (s : State Mark), left n s ≤ N → Reach Step (nodes n fun r => session n r c 0 m) s →
      ∃ s', Relation.ReflTransGen Step s s' ∧ ∀ r < n, Finished s' r := by
    intro N
    induction N with
    | zero =>
      intro s hN _
      refine ⟨s, .refl, fun r hr => ?_⟩
      have : (s.todo r).length ≤ left n s :=
        Finset.single_le_sum (f := fun r => (s.todo r).length) (fun _ _ => Nat.zero_le _) (Finset.mem_range.mpr hr)
      exact List.length_eq_zero_iff.mp (by omega)
    | succ N ih =>
      intro s hN hs
      by_cases hf : ∃ r < n, ¬ Finished s r
      · obtain ⟨s', h'⟩ := live_session hn c m s hs hf
        have := left_step (inv_reach hs) h'
        obtain ⟨s'', h1, h2⟩ := ih s' (by omega) (hs.tail h')
        exact ⟨s'', .head h' h1, h2⟩
      · push Not at hf
        exact ⟨s, .refl, hf⟩
  obtain ⟨s', h1, h2⟩ := key _ s le_rfl hs
  refine ⟨s', h1, h2, fun r hr k hk => ?_⟩
  have hi := (inv_reach (hs.trans h1)).split r
  rw [h2 r hr, List.append_nil] at hi
  unfold Did
  rw [← hi]
  simp only [nodes, hr, if_true, session_split hn r k c 0 m hk]
  simp

/-- hypotheses: four nodes with three barriers each have 3·(3+2) + 3·9 operations -/
example : ∑ r ∈ Finset.range 4, (session 4 r 10000 0 3).length = 42 := by decide

/-! ### C251 -/

/-- A node that skips its first barrier gets the message of that one in the second:
it leaves the second barrier before node 0 has entered it. -/
theorem C251_false (c : Nat) : ∃ s, Reach Step (nodes 2 fun r => if r = 0 then session 2 0 c 0 2 else session 2 1 c 1 1) s ∧
    Did s 1 (.leave 1) ∧ ¬ Did s 0 (.enter 1) := by
  let p := nodes 2 fun r => if r = 0 then session 2 0 c 0 2 else session 2 1 c 1 1
  have p0 : p 0 = [.act (.enter 0), .send 1 c, .act (.leave 0)] ++ [.act (.enter 1), .send 1 (c + 1), .act (.leave 1)] := by
    simp [p, nodes, session_succ (le_refl 2), barrier_root (le_refl 2), session]
  have p1 : p 1 = [.act (.enter 1), .recv 0 c, .act (.leave 1)] := by
    simp [p, nodes, session_succ (le_refl 2), barrier_other (le_refl 2), session]
  obtain ⟨s', h1, h2, h3, -, h5⟩ := solo 0 [.act (.enter 0), .send 1 c, .act (.leave 0)] (by simp) (start p) _ (by simpa [start] using p0)
  have e : s'.todo 1 = [.act (.enter 1), .recv 0 c, .act (.leave 1)] := by rw [h2]; simpa [start] using p1
  have hmail := h5 1 c (by simp)
  have a1 := Step.act (s := s') (r := 1) e
  have a2 := Step.recv (s := s'.next 1 (.act (.enter 1)) [.recv 0 c, .act (.leave 1)] s'.mail) (r := 1) (c := 0) (t := c)
    (rest := [.act (.leave 1)]) (by simp [State.next]) (by simpa [State.next] using hmail)
  have a3 := Step.act (s := (s'.next 1 (.act (.enter 1)) [.recv 0 c, .act (.leave 1)] s'.mail).next 1 (.recv 0 c) [.act (.leave 1)]
    (s'.mail.erase (0, 1, c))) (r := 1) (a := .leave 1) (rest := []) (by simp [State.next])
  refine ⟨_, Relation.ReflTransGen.tail (.tail (.tail h1 a1) a2) a3, by simp [Did, State.next], ?_⟩
  simp [Did, State.next, h3, start]

/-- Node `r` leaves none of the barriers that node 0 does not call: it waits forever. -/
theorem C251_partial (n c m m' : Nat) (hn : 2 ≤ n) (s : State Mark)
    (hs : Reach Step (nodes n fun r => if r = 0 then session n 0 c 0 m else session n r c 0 m') s)
    (r k : Nat) (hr : r ≠ 0) (hk : m ≤ k) : ¬ Did s r (.leave k) := by
  intro h
  have hi := inv_reach hs
  have hrn : r < n := by
    by_contra hr'
    have := hi.split r
    simp [nodes, hr'] at this
    simp [Did, this.1] at h
  have h1 := hi.split r
  have h0 := hi.split 0
  simp only [nodes, hrn, if_true, if_neg hr, show 0 < n by omega] at h1 h0
  obtain ⟨_, _, hb⟩ := leave_after hn h1 (j := k) (by simpa [Did] using h)
  have hsend := sent_of_recv hi (hb (.recv 0 (c + k)) (by rw [barrier_other hn hr]; simp))
  have hmem : (Op.send r (c + k) : Op Mark) ∈ session n 0 c 0 m := by rw [h0]; simp [hsend]
  obtain ⟨j, hj, h | h | h⟩ := mem_session hn 0 m _ _ _ hmem
  · simp at h
  · simp at h
  · rcases mem_barrier hn h with ⟨_, i, _, _, h⟩ | ⟨h', _⟩
    · simp at h; omega
    · exact h' rfl

/-- hypotheses: node 0 calls once, node 1 twice; the second call waits for tag 10001 -/
example : Op.recv 0 10001 ∈ session 2 1 10000 0 2 ∧ ∀ i, Op.send i 10001 ∉ session 2 0 10000 0 1 := by
  constructor
  · decide
  · intro i h
    have : session 2 0 10000 0 1 = [.act (.enter 0), .send 1 10000, .act (.leave 0)] := by decide
    simp [this] at h

/-! ### C252 -/

/-- Node 0 merges the files when no other node has written anything yet. -/
theorem C252_false (n c : Nat) (hn : 2 ≤ n) : ∃ s, Reach Step (nodes n fun r => areaMonitor n r c) s ∧
    Did s 0 .merge ∧ ∀ q ≠ 0, ¬ Did s q .write := by
  have hno : ∀ o ∈ areaMonitor n 0 c, ∀ a t, o ≠ .recv a t := by
    intro o ho a t h
    simp only [areaMonitor, if_true, List.mem_cons, List.mem_append, List.not_mem_nil, or_false] at ho
    rcases ho with ho | ho | ho
    · simp [h] at ho
    · exact root_no_recv hn _ _ ho a t h
    · simp [h] at ho
  obtain ⟨s', h1, h2, h3, -, -⟩ := solo 0 (areaMonitor n 0 c) hno (start (nodes n fun r => areaMonitor n r c)) []
    (by simp [start, nodes]; omega)
  refine ⟨s', h1, ?_, fun q hq => by simp [Did, h3, hq, start]⟩
  simp [Did, h3, start, areaMonitor]

/-- Its own file it always finds. -/
theorem C252_partial (n c : Nat) (hn : 1 ≤ n) : After Step (nodes n fun r => areaMonitor n r c) 0 .merge 0 .write := by
  intro s hs h
  have h0 := (inv_reach hs).split 0
  simp only [nodes, show 0 < n by omega, if_true] at h0
  unfold Did at *
  cases hd : s.done 0 with
  | nil => simp [hd] at h
  | cons o l =>
    rw [hd] at h0
    simp only [areaMonitor, List.cons_append, List.cons.injEq] at h0
    simp [h0.1]

/-- hypotheses: the two programs -/
example : areaMonitor 2 0 10000 = [.act .write, .send 1 10000, .act .merge] ∧
    areaMonitor 2 1 10000 = [.act .write, .recv 0 10000] := by decide

/-! ### C253 -/

/-- Another node can make the output directory before node 0 checks that it is not
there (buffered messages or not), and node 0 then stops with an error. -/
theorem C253_false (n c : Nat) (hn : 2 ≤ n) :
    ¬ After Step (nodes n fun r => setupOutput n r c) 1 .makeOwn 0 .check ∧
    ¬ After SyncStep (nodes n fun r => setupOutput n r c) 1 .makeOwn 0 .check := by
  obtain ⟨n, rfl⟩ : ∃ k, n = k + 2 := ⟨n - 2, by omega⟩
  let p := nodes (n + 2) fun r => setupOutput (n + 2) r c
  have p0 : p 0 = .send 1 c :: ((List.range' 2 n).map (fun i => .send i c) ++ [.act .check, .act .make, .act .makeOwn]) := by
    simp [p, nodes, setupOutput, barrier_root (show 2 ≤ n + 2 by omega), List.range'_succ]
  have p1 : p 1 = [.recv 0 c, .act .makeOwn] := by
    simp [p, nodes, setupOutput, barrier_other (show 2 ≤ n + 2 by omega)]
  constructor
  · intro h
    have s1 : Step (start p) _ := .send (r := 0) (by simpa [start] using p0)
    have s2 := Step.recv (s := (start p).next 0 (.send 1 c) ((List.range' 2 n).map (fun i => .send i c) ++ [.act .check, .act .make, .act .makeOwn])
      ((start p).mail ++ [(0, 1, c)])) (r := 1) (c := 0) (t := c)
      (rest := [.act .makeOwn]) (by simpa [start, State.next] using p1) (by simp [State.next])
    have s3 := Step.act (s := State.next ((start p).next 0 (.send 1 c) ((List.range' 2 n).map (fun i => .send i c) ++ [.act .check, .act .make, .act .makeOwn])
      ((start p).mail ++ [(0, 1, c)])) 1 (.recv 0 c) [.act .makeOwn]
        (((start p).mail ++ [(0, 1, c)]).erase (0, 1, c))) (r := 1) (a := .makeOwn) (rest := []) (by simp [State.next])
    have := h _ (Relation.ReflTransGen.tail (.tail (.tail .refl s1) s2) s3) (by simp [Did, State.next])
    simp [Did, State.next, start] at this
  · intro h
    have s1 : SyncStep (start p) _ := .meet (r := 0) (d := 1) (t := c) (by omega) (by simpa [start] using p0) (by simpa [start] using p1)
    have s2 := SyncStep.act (s := State.next ((start p).next 0 (.send 1 c) ((List.range' 2 n).map (fun i => .send i c) ++ [.act .check, .act .make, .act .makeOwn])
      (start p).mail) 1 (.recv 0 c) [.act .makeOwn] (start p).mail) (r := 1) (a := .makeOwn) (rest := []) (by simp [State.next])
    have := h _ (Relation.ReflTransGen.tail (.tail .refl s1) s2) (by simp [Did, State.next])
    simp [Did, State.next, start] at this

/-- No other node uses the directory before node 0 has begun to set it up, and node
0 uses it after it has made it. -/
theorem C253_partial (n c : Nat) (hn : 2 ≤ n) (s : State Dir) (hs : Reach Step (nodes n fun r => setupOutput n r c) s) :
    (∀ q ≠ 0, Did s q .makeOwn → Op.send q c ∈ s.done 0) ∧ (Did s 0 .makeOwn → Did s 0 .check ∧ Did s 0 .make) := by
  have hi := inv_reach hs
  constructor
  · intro q hq h
    have hqn : q < n := by
      by_contra hr'
      have := hi.split q
      simp [nodes, hr'] at this
      simp [Did, this.1] at h
    have h1 := hi.split q
    simp only [nodes, hqn, if_true, setupOutput, barrier_other hn hq, if_neg hq] at h1
    exact sent_of_recv hi (before (P := [.recv 0 c]) (S := []) (by rw [← h1]) (by simp) h _ (by simp))
  · intro h
    have h0 := hi.split 0
    simp only [nodes, show 0 < n by omega, if_true, setupOutput] at h0
    have hb := before (P := (barrier Dir n 0 c).1 ++ [.act .check, .act .make]) (S := []) (y := .act .makeOwn)
      (by rw [← h0]; simp) (by
        simp only [List.mem_append, List.mem_cons, List.not_mem_nil, or_false, not_or]
        refine ⟨fun hm => ?_, by simp, by simp⟩
        rcases mem_barrier hn hm with ⟨_, _, _, _, h⟩ | ⟨_, h⟩ <;> simp at h) h
    exact ⟨hb _ (by simp), hb _ (by simp)⟩

/-- hypotheses: the two programs -/
example : setupOutput 2 0 10000 = [.send 1 10000, .act .check, .act .make, .act .makeOwn] ∧
    setupOutput 2 1 10000 = [.recv 0 10000, .act .makeOwn] := by decide

end Verif.Parallel
