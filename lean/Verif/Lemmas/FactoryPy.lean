import Verif.Spec.FactoryPy
import Mathlib.Data.List.Basic
import Mathlib.Data.List.Nodup
import Mathlib.Tactic.Cases
import Mathlib.Tactic.Push
/-!
Lemmas about the python module that is made for a component of McStas.
-/

namespace Verif.FactoryPy

/-! ### texts -/

theorem read_ok : ∀ {s : Text}, '\\' ∉ s → (∀ x y, s ≠ x ++ '"' :: '"' :: '"' :: y) → s.getLast? ≠ some '"' →
    readLiteral (s ++ ['"', '"', '"']) = some (s, [])
  | [], _, _, _ => rfl
  | c :: s, h1, h2, h3 => by
    have hc : c ≠ '\\' := fun e => h1 (e ▸ List.mem_cons_self)
    have ih : readLiteral (s ++ ['"', '"', '"']) = some (s, []) := by
      apply read_ok (fun h => h1 (List.mem_cons_of_mem _ h)) (fun x y e => h2 (c :: x) y (by rw [e]; rfl))
      cases s with
      | nil => simp
      | cons d s => rwa [List.getLast?_cons_cons] at h3
    rw [List.cons_append, readLiteral, ih]
    · rfl
    · rintro r rfl e
      match s, e with
      | [], _ => exact h3 rfl
      | [d], e =>
        simp only [List.cons_append, List.nil_append, List.cons.injEq] at e
        rw [e.1] at h3
        exact h3 rfl
      | d :: d' :: s, e =>
        simp only [List.cons_append, List.cons.injEq] at e
        exact h2 [] s (by rw [e.1, e.2.1]; rfl)
    · intro c' r e _
      exact hc e

theorem literal_ok {s : Text} (h : Quotable s) : literal s = .ok s := by
  rw [literal, read_ok h.1 h.2.1 h.2.2]

/-! ### lines -/

theorem run_append : ∀ {env env' : Env} {ss ts : List Stmt}, run env ss = .ok env' → run env (ss ++ ts) = run env' ts
  | _, _, [], _, h => by
    cases h
    rfl
  | env, env', s :: ss, ts, h => by
    rw [run] at h
    rw [List.cons_append, run]
    cases hs : step env s with
    | error e =>
      rw [hs] at h
      cases h
    | ok e1 =>
      rw [hs] at h
      exact run_append (ss := ss) h

theorem put_same (env : Env) (x : Text) (v : Val) : env.put x v x = some v := if_pos rfl

theorem put_ne {env : Env} {x n : Text} {v : Val} (h : n ≠ x) : env.put x v n = env n := if_neg h

/-- the variables that the lines for a value may assign -/
def Touch (b : Bool) (name n : Text) : Prop := n = name ∨ (name ++ ['_']) <+: n ∨ (b = false ∧ "item".toList <+: n)

/-- no longer name is an item -/
def Apart (name : Text) : Prop := ∀ r, ¬ "item".toList <+: name ++ r

theorem apart_ext {name : Text} (h : Apart name) (r : Text) : Apart (name ++ r) := fun r' => by
  rw [List.append_assoc]
  exact h _

theorem digits_inj {i j : Nat} (h : item i = item j) : i = j := by
  have h1 : Nat.toDigits 10 i = Nat.toDigits 10 j := List.append_cancel_left h
  have h2 := congrArg (fun l => Nat.ofDigitChars 10 l 0) h1
  simpa only [Nat.ofDigitChars_ten_toDigits] using h2

theorem item_low (i : Nat) : '_' ∉ item i := by
  intro h
  rcases List.mem_append.1 h with h | h
  · revert h
    decide
  · exact absurd (Nat.isDigit_of_mem_toDigits (by decide) (by decide) h) (by decide)

theorem item_touch {i j : Nat} (h : Touch true (item i) (item j)) : i = j := by
  rcases h with h | h | h
  · exact digits_inj h.symm
  · exact absurd (h.subset (by simp)) (item_low j)
  · cases h.1

theorem setAttr_new {a : Text} {v : Val} : ∀ {ps : List (Text × Val)}, a ∉ ps.map Prod.fst → setAttr a v ps = ps ++ [(a, v)]
  | [], _ => rfl
  | p :: ps, h => by
    simp only [List.map_cons, List.mem_cons, not_or] at h
    rw [setAttr, if_neg (Ne.symm h.1), setAttr_new h.2]
    rfl

/-- what is claimed of the lines for one value -/
def Good (b : Bool) (v : Val) : Prop := ∀ name env, (b = false → Apart name) →
  ∃ env', run env (inst2str name v) = .ok env' ∧ env' name = some v ∧ ∀ n, ¬ Touch b name n → env' n = env n

theorem items_good : ∀ {xs : List Val} (_ : ∀ x ∈ xs, Good true x) (k : Nat) (env : Env),
    ∃ env', run env (items k xs) = .ok env' ∧ lookups env' ((List.range' k xs.length).map item) = some xs ∧
      ∀ n, (∀ i, k ≤ i → ¬ Touch true (item i) n) → env' n = env n
  | [], _, k, env => ⟨env, by rw [items]; rfl, rfl, fun _ _ => rfl⟩
  | x :: xs, h, k, env => by
    obtain ⟨e1, r1, g1, u1⟩ := h x List.mem_cons_self (item k) env (by simp)
    obtain ⟨e2, r2, g2, u2⟩ := items_good (fun y hy => h y (List.mem_cons_of_mem _ hy)) (k + 1) e1
    refine ⟨e2, ?_, ?_, fun n hn => ?_⟩
    · rw [items, run_append r1, r2]
    · rw [List.length_cons, List.range'_succ, List.map_cons, lookups, g2, u2 (item k), g1]
      intro i hi ht
      have := item_touch ht
      omega
    · rw [u2 n fun i hi => hn i (by omega), u1 n (hn k (Nat.le_refl k))]

theorem touch_sub {b : Bool} {name a n : Text} (h : Touch b (name ++ '_' :: a) n) : Touch b name n := by
  rcases h with rfl | h | h
  · exact .inr (.inl ⟨a, by simp⟩)
  · refine .inr (.inl (List.IsPrefix.trans ⟨a ++ ['_'], by simp⟩ h))
  · exact .inr (.inr h)

theorem touch_self {b : Bool} {name a : Text} (hb : b = false → Apart name) : ¬ Touch b (name ++ '_' :: a) name := by
  rintro (h | h | ⟨h1, h2⟩)
  · have := congrArg List.length h
    simp at this
  · have := h.length_le
    simp at this
    omega
  · exact hb h1 [] (by simpa using h2)

theorem attributes_good {b : Bool} {name cls : Text} (hb : b = false → Apart name) : ∀ {as : List (Text × Val)} (done : List (Text × Val)) (env : Env),
    (∀ p ∈ as, Good b p.2) → (∀ p ∈ as, p.1.head? ≠ some '_') → ((done ++ as).map Prod.fst).Nodup → env name = some (.obj cls done) →
    ∃ env', run env (attributes name as) = .ok env' ∧ env' name = some (.obj cls (done ++ as)) ∧ ∀ n, ¬ Touch b name n → env' n = env n
  | [], done, env, _, _, _, he => ⟨env, by rw [attributes]; rfl, by rw [he, List.append_nil], fun _ _ => rfl⟩
  | (a, v) :: as, done, env, h, hp, hn, he => by
    obtain ⟨e1, r1, g1, u1⟩ := h (a, v) List.mem_cons_self (name ++ '_' :: a) env fun h0 => apart_ext (hb h0) _
    have hname : e1 name = some (.obj cls done) := by rw [u1 name (touch_self hb), he]
    have hnew : a ∉ done.map Prod.fst := by
      intro hm
      rw [List.map_append, List.nodup_append] at hn
      exact hn.2.2 a hm a (by simp) rfl
    have hs : step e1 (.set name a (name ++ '_' :: a)) = .ok (e1.put name (.obj cls (done ++ [(a, v)]))) := by
      rw [step, g1, hname]
      simp only
      rw [setAttr_new hnew]
    obtain ⟨e2, r2, g2, u2⟩ := attributes_good hb (as := as) (done ++ [(a, v)]) (e1.put name (.obj cls (done ++ [(a, v)])))
      (fun p hm => h p (List.mem_cons_of_mem _ hm)) (fun p hm => hp p (List.mem_cons_of_mem _ hm)) (by simpa using hn) (put_same ..)
    refine ⟨e2, ?_, by simpa using g2, fun n hn => ?_⟩
    · rw [attributes, if_neg (hp (a, v) List.mem_cons_self), run_append r1, run, hs]
      exact r2
    · rw [u2 n hn, put_ne (fun e => hn (.inl e)), u1 n fun ht => hn (touch_sub ht)]

theorem good {b : Bool} {v : Val} (h : Fine b v) : Good b v := by
  induction h with
  | num b n =>
    intro name env _
    exact ⟨env.put name (.num n), by rw [inst2str]; rfl, put_same .., fun m hm => put_ne fun e => hm (.inl e)⟩
  | str b h =>
    rename_i s
    intro name env _
    refine ⟨env.put name (.str s), ?_, put_same .., fun m hm => put_ne fun e => hm (.inl e)⟩
    rw [inst2str, run, step, literal_ok h]
    rfl
  | list h ih =>
    rename_i xs
    intro name env hb
    obtain ⟨e1, r1, g1, u1⟩ := items_good ih 0 env
    refine ⟨e1.put name (.list xs), ?_, put_same .., fun n hn => ?_⟩
    · rw [inst2str, run_append r1, run, step, g1]
      rfl
    · rw [put_ne fun e => hn (.inl e), u1 n]
      rintro i - (rfl | ht | ht)
      · exact hn (.inr (.inr ⟨rfl, ⟨_, rfl⟩⟩))
      · refine hn (.inr (.inr ⟨rfl, List.IsPrefix.trans ?_ ht⟩))
        unfold item
        rw [List.append_assoc]
        exact ⟨_, rfl⟩
      · cases ht.1
  | obj b hc hn hp h ih =>
    rename_i cls attrs
    intro name env hb
    have hk : cls ∈ known := by
      rcases hc with rfl | rfl <;> decide
    obtain ⟨e1, r1, g1, u1⟩ := attributes_good hb (as := attrs) (cls := cls) [] (env.put name (.obj cls [])) ih hp (by simpa using hn) (put_same ..)
    refine ⟨e1, ?_, by simpa using g1, fun n hn => ?_⟩
    · rw [inst2str, run, step, if_pos hk]
      exact r1
    · rw [u1 n hn, put_ne fun e => hn (.inl e)]

theorem info_apart : Apart "info".toList := by
  rintro r ⟨t, ht⟩
  simp at ht

/-! ### the factory -/

variable {V : Type}

theorem bind_ok (kw : List (Text × V)) : ∀ {params : List (Text × V)} {args : List V}, args.length ≤ params.length →
    (∀ p ∈ params.take args.length, p.1 ∉ kw.map Prod.fst) →
    ∃ vs, bind params args kw = .ok ((params.map Prod.fst).zip vs) ∧ vs.length = params.length ∧
      vs.map some = (List.range params.length).map (given params args kw)
  | [], [], _, _ => ⟨[], rfl, rfl, rfl⟩
  | [], _ :: _, h, _ => by simp at h
  | (n, d) :: ps, v :: vs, h, hk => by
    obtain ⟨ws, e1, e2, e3⟩ := bind_ok kw (params := ps) (args := vs) (by simpa using h)
      (fun p hp => hk p (by simp [hp]))
    refine ⟨v :: ws, ?_, by simp [e2], ?_⟩
    · rw [bind, if_neg (hk (n, d) (by simp)), e1]
      rfl
    · rw [List.map_cons, e3, List.length_cons, List.range_succ_eq_map, List.map_cons, List.map_map]
      congr 1
      apply List.map_congr_left
      intro i _
      simp [given]
  | (n, d) :: ps, [], h, hk => by
    obtain ⟨ws, e1, e2, e3⟩ := bind_ok kw (params := ps) (args := []) (by simp) (by simp)
    refine ⟨(kw.lookup n).getD d :: ws, ?_, by simp [e2], ?_⟩
    · rw [bind, e1]
      rfl
    · rw [List.map_cons, e3, List.length_cons, List.range_succ_eq_map, List.map_cons, List.map_map]
      rfl

theorem bind_refused {kw : List (Text × V)} : ∀ {params : List (Text × V)} {args : List V},
    (params.length < args.length ∨ ∃ p ∈ params.take args.length, p.1 ∈ kw.map Prod.fst) → bind params args kw = .error .typeError
  | [], [], h => by simp at h
  | [], _ :: _, _ => rfl
  | (n, d) :: ps, [], h => by simp at h
  | (n, d) :: ps, v :: vs, h => by
    rw [bind]
    by_cases hn : n ∈ kw.map Prod.fst
    · rw [if_pos hn]
    · rw [if_neg hn, bind_refused (params := ps) (args := vs)]
      rcases h with h | ⟨p, hp, h⟩
      · exact .inl (by simpa using h)
      · rw [List.length_cons, List.take_succ_cons, List.mem_cons] at hp
        rcases hp with rfl | hp
        · exact absurd h hn
        · exact .inr ⟨p, hp, h⟩

theorem lookup_zip : ∀ {ns : List Text} {vs : List V}, ns.Nodup → vs.length = ns.length →
    ns.map (fun n => (ns.zip vs).lookup n) = vs.map some
  | [], [], _, _ => rfl
  | [], _ :: _, _, h => by simp at h
  | _ :: _, [], _, h => by simp at h
  | n :: ns, v :: vs, hn, hl => by
    rw [List.nodup_cons] at hn
    rw [List.map_cons, List.map_cons, List.zip_cons_cons, List.lookup_cons_self, ← lookup_zip hn.2 (by simpa using hl)]
    congr 1
    apply List.map_congr_left
    intro m hm
    have : (m == n) = false := by
      rw [beq_eq_false_iff_ne]
      rintro rfl
      exact hn.1 hm
    rw [List.lookup_cons, this]

end Verif.FactoryPy
