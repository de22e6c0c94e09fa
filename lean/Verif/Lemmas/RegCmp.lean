import Mathlib.Data.List.Basic
import Mathlib.Data.List.Nodup
import Mathlib.Tactic.Tauto
import Verif.Spec.RegCmp

namespace Verif.RegCmp

lemma lookup_mem {β : Type} (e : List (String × β)) (k : String) (v : β) (h : e.lookup k = some v) : (k, v) ∈ e := by
  induction e with
  | nil => simp at h
  | cons x e ih =>
    obtain ⟨a, b⟩ := x
    by_cases hk : k = a
    · subst hk
      simp at h
      simp [h]
    · rw [List.lookup_cons, beq_false_of_ne hk] at h
      exact List.mem_cons_of_mem _ (ih h)

lemma mem_lookup {β : Type} (e : List (String × β)) (hn : (e.map Prod.fst).Nodup) (k : String) (v : β) (h : (k, v) ∈ e) : e.lookup k = some v := by
  induction e with
  | nil => simp at h
  | cons x e ih =>
    obtain ⟨a, b⟩ := x
    simp only [List.map_cons, List.nodup_cons] at hn
    rw [List.lookup_cons]
    rcases List.mem_cons.mp h with h' | h'
    · simp only [Prod.mk.injEq] at h'
      obtain ⟨rfl, rfl⟩ := h'
      simp
    · have : k ≠ a := by
        rintro rfl
        exact hn.1 (List.mem_map.mpr ⟨(k, v), h', rfl⟩)
      rw [beq_false_of_ne this]
      exact ih hn.2 h'

lemma lookup_none {β : Type} (e : List (String × β)) (k : String) : e.lookup k = none ↔ ∀ v, (k, v) ∉ e := by
  induction e with
  | nil => simp
  | cons x e ih =>
    obtain ⟨a, b⟩ := x
    rw [List.lookup_cons]
    by_cases hk : k = a
    · subst hk
      simp only [beq_self_eq_true, reduceCtorEq, false_iff, not_forall, not_not]
      exact ⟨b, by simp⟩
    · rw [beq_false_of_ne hk]
      simp [hk, ih]

lemma value_get (r : Reg) (k : String) : value r k = get r.entries k := by
  unfold value get
  congr 1
  generalize r.entries = e
  induction e with
  | nil => rfl
  | cons x e ih =>
    obtain ⟨a, b⟩ := x
    rw [List.lookup_cons]
    by_cases hk : k = a
    · subst hk
      simp
    · rw [beq_false_of_ne hk, List.find?_cons_of_neg (by simpa using fun h => hk h.symm), ih]

lemma mem_put (d : List (String × Entry)) (k : String) (v : Entry) (x : String × Entry) : x ∈ put d k v ↔ x = (k, v) ∨ (x ∈ d ∧ x.1 ≠ k) := by
  unfold put
  split_ifs with h
  · obtain ⟨w, hw⟩ := Option.isSome_iff_exists.mp h
    have hm := lookup_mem _ _ _ hw
    rw [List.mem_map]
    constructor
    · rintro ⟨y, hy, rfl⟩
      by_cases hyk : y.1 = k
      · simp [hyk]
      · rw [if_neg hyk]
        exact .inr ⟨hy, hyk⟩
    · rintro (rfl | ⟨hx, hk⟩)
      · exact ⟨(k, w), hm, by simp⟩
      · exact ⟨x, hx, by rw [if_neg hk]⟩
  · rw [Option.not_isSome_iff_eq_none, lookup_none] at h
    rw [List.mem_append, List.mem_singleton]
    constructor
    · rintro (hx | rfl)
      · refine .inr ⟨hx, ?_⟩
        rintro rfl
        exact h _ hx
      · exact .inl rfl
    · rintro (rfl | ⟨hx, _⟩)
      · exact .inr rfl
      · exact .inl hx

lemma mem_first (e2 e1 : List (String × Val)) (hn : (e1.map Prod.fst).Nodup) (d : List (String × Entry)) (k : String) (v : Entry) :
    (k, v) ∈ first e2 e1 d ↔ (∃ v1, (k, v1) ∈ e1 ∧ v1 ≠ get e2 k ∧ v = .pair v1 (get e2 k)) ∨
      ((k, v) ∈ d ∧ ∀ v1, (k, v1) ∈ e1 → v1 = get e2 k) := by
  induction e1 generalizing d with
  | nil => simp [first]
  | cons x e1 ih =>
    obtain ⟨a, w⟩ := x
    simp only [List.map_cons, List.nodup_cons] at hn
    rw [first, ih hn.2]
    by_cases hk : k = a
    · subst hk
      have hno : ∀ v1, (k, v1) ∉ e1 := fun v1 h => hn.1 (List.mem_map.mpr ⟨_, h, rfl⟩)
      by_cases hw : w = get e2 k
      · rw [if_neg (by simpa using hw)]
        simp [hno, hw]
      · rw [if_pos hw, mem_put]
        simp [hno, hw]
    · have hp : (k, v) ∈ (if w ≠ get e2 a then put d a (.pair w (get e2 a)) else d) ↔ (k, v) ∈ d := by
        split_ifs
        · rw [mem_put]
          simp [hk]
        · rfl
      rw [hp]
      simp [hk]

lemma mem_second (e1 e2 : List (String × Val)) (hn : (e2.map Prod.fst).Nodup) (d : List (String × Entry)) (k : String) (v : Entry) :
    (k, v) ∈ second e1 e2 d ↔ (∃ v2, (k, v2) ∈ e2 ∧ e1.lookup k = none ∧ v2 ≠ none ∧ v = .pair none v2) ∨
      ((k, v) ∈ d ∧ ∀ v2, (k, v2) ∈ e2 → e1.lookup k = none → v2 = none) := by
  induction e2 generalizing d with
  | nil => simp [second]
  | cons x e2 ih =>
    obtain ⟨a, w⟩ := x
    simp only [List.map_cons, List.nodup_cons] at hn
    rw [second, ih hn.2]
    by_cases hk : k = a
    · subst hk
      have hno : ∀ v1, (k, v1) ∉ e2 := fun v1 h => hn.1 (List.mem_map.mpr ⟨_, h, rfl⟩)
      rcases hl : e1.lookup k with _ | u
      · have hg : get e1 k = none := by unfold get; rw [hl]; rfl
        rw [hg]
        by_cases hw : w = none
        · subst hw
          simp [hno]
        · rw [if_neg (by simp), if_pos (fun h => hw h.symm), mem_put]
          simp [hno, hw]
      · simp [hno]
    · have hp : (k, v) ∈ (if (e1.lookup a).isSome then d else if get e1 a ≠ w then put d a (.pair (get e1 a) w) else d) ↔ (k, v) ∈ d := by
        split_ifs
        · rfl
        · rw [mem_put]
          simp [hk]
        · rfl
      rw [hp]
      simp [hk]

lemma mem_both (e1 e2 : List (String × Val)) (h1 : (e1.map Prod.fst).Nodup) (h2 : (e2.map Prod.fst).Nodup) (t : Entry) (k : String) (v : Entry)
    (hk : k ≠ "name") : (k, v) ∈ second e1 e2 (first e2 e1 [("name", t)]) ↔ get e1 k ≠ get e2 k ∧ v = .pair (get e1 k) (get e2 k) := by
  rw [mem_second _ _ h2, mem_first _ _ h1]
  have h0 : (k, v) ∉ [("name", t)] := by simp [hk]
  rcases hl1 : e1.lookup k with _ | v1
  · have hno := (lookup_none _ _).mp hl1
    have hg : get e1 k = none := by unfold get; rw [hl1]; rfl
    rcases hl2 : e2.lookup k with _ | v2
    · have hno2 := (lookup_none _ _).mp hl2
      have hg2 : get e2 k = none := by unfold get; rw [hl2]; rfl
      simp [hno, hno2, hg, hg2, hk]
    · have hg2 : get e2 k = v2 := by unfold get; rw [hl2]; rfl
      have hm := lookup_mem _ _ _ hl2
      rw [hg, hg2]
      constructor
      · rintro (⟨w, hw, _, hw2, rfl⟩ | ⟨h, _⟩)
        · have := mem_lookup _ h2 _ _ hw
          rw [hl2] at this
          obtain rfl := Option.some.inj this
          exact ⟨fun h => hw2 h.symm, rfl⟩
        · rcases h with ⟨_, h, _⟩ | ⟨h, _⟩
          · exact absurd h (hno _)
          · exact absurd h h0
      · rintro ⟨h, rfl⟩
        exact .inl ⟨v2, hm, rfl, fun h' => h h'.symm, rfl⟩
  · have hg : get e1 k = v1 := by unfold get; rw [hl1]; rfl
    have hm := lookup_mem _ _ _ hl1
    rw [hg]
    constructor
    · rintro (⟨_, _, h, _⟩ | ⟨h, _⟩)
      · exact absurd h (by simp)
      · rcases h with ⟨w, hw, hw2, rfl⟩ | ⟨h, _⟩
        · have := mem_lookup _ h1 _ _ hw
          rw [hl1] at this
          obtain rfl := Option.some.inj this
          exact ⟨hw2, rfl⟩
        · exact absurd h h0
    · rintro ⟨h, rfl⟩
      exact .inr ⟨.inl ⟨v1, hm, h, rfl⟩, fun _ _ h => absurd h (by simp)⟩

lemma keep_put (d : List (String × Entry)) (k : String) (v : Entry) (h : ∃ w, ("name", w) ∈ d) : ∃ w, ("name", w) ∈ put d k v := by
  obtain ⟨w, hw⟩ := h
  by_cases hk : k = "name"
  · exact ⟨v, by rw [mem_put, hk]; exact .inl rfl⟩
  · exact ⟨w, by rw [mem_put]; exact .inr ⟨hw, fun h => hk h.symm⟩⟩

lemma keep_first (e2 e1 : List (String × Val)) (d : List (String × Entry)) (h : ∃ w, ("name", w) ∈ d) : ∃ w, ("name", w) ∈ first e2 e1 d := by
  induction e1 generalizing d with
  | nil => exact h
  | cons x e1 ih =>
    obtain ⟨a, w⟩ := x
    rw [first]
    apply ih
    split_ifs
    · exact keep_put _ _ _ h
    · exact h

lemma keep_second (e1 e2 : List (String × Val)) (d : List (String × Entry)) (h : ∃ w, ("name", w) ∈ d) : ∃ w, ("name", w) ∈ second e1 e2 d := by
  induction e2 generalizing d with
  | nil => exact h
  | cons x e1 ih =>
    obtain ⟨a, w⟩ := x
    rw [second]
    apply ih
    split_ifs
    · exact h
    · exact keep_put _ _ _ h
    · exact h

lemma changes_ok (i : Nat) (d : List (String × Entry)) (h : ∀ k v, (k, v) ∈ d → k ≠ "name" → k ≠ "components" ∧ ∃ v1 v2, v = .pair v1 v2) :
    ∃ ls, changes i d = .ok ls ∧ ∀ l, l ∈ ls ↔ ∃ k v1 v2, l = .changed i k v1 v2 ∧ k ≠ "name" ∧ (k, .pair v1 v2) ∈ d := by
  induction d with
  | nil => exact ⟨[], rfl, by simp⟩
  | cons x d ih =>
    obtain ⟨k, v⟩ := x
    obtain ⟨ls, h1, h2⟩ := ih fun k v hm => h k v (List.mem_cons_of_mem _ hm)
    by_cases hk : k = "name"
    · refine ⟨ls, by unfold changes; rw [if_pos (.inl hk)]; exact h1, fun l => (h2 l).trans ?_⟩
      constructor
      · rintro ⟨k', v1, v2, rfl, hk', hm⟩
        exact ⟨k', v1, v2, rfl, hk', List.mem_cons_of_mem _ hm⟩
      · rintro ⟨k', v1, v2, rfl, hk', hm⟩
        rcases List.mem_cons.mp hm with hm | hm
        · simp only [Prod.mk.injEq] at hm
          exact absurd (hm.1.trans hk) hk'
        · exact ⟨k', v1, v2, rfl, hk', hm⟩
    · obtain ⟨hc, v1, v2, rfl⟩ := h k v (by simp) hk
      refine ⟨.changed i k v1 v2 :: ls, by unfold changes; rw [if_neg (by tauto), h1], fun l => ?_⟩
      rw [List.mem_cons, h2]
      constructor
      · rintro (rfl | ⟨k', w1, w2, rfl, hk', hm⟩)
        · exact ⟨k, v1, v2, rfl, hk, by simp⟩
        · exact ⟨k', w1, w2, rfl, hk', List.mem_cons_of_mem _ hm⟩
      · rintro ⟨k', w1, w2, rfl, hk', hm⟩
        rcases List.mem_cons.mp hm with hm | hm
        · simp only [Prod.mk.injEq, Entry.pair.injEq] at hm
          obtain ⟨rfl, rfl, rfl⟩ := hm
          exact .inl rfl
        · exact .inr ⟨k', w1, w2, rfl, hk', hm⟩

lemma part_one (r : Reg) (n : String) : part r [n] = r.components.lookup n := by
  unfold part
  cases r.components.lookup n <;> rfl

lemma part_cons (r q : Reg) (n : String) (ns : List String) (h : r.components.lookup n = some q) : part r (n :: ns) = part q ns := by
  conv_lhs => unfold part
  rw [h]

lemma proper_part (r q : Reg) (n : String) (h : Proper r) (hq : r.components.lookup n = some q) : Proper q := by
  intro path s hs
  exact h (n :: path) s (by rw [part_cons _ _ _ _ hq]; exact hs)

lemma proper_name (r : Reg) (h : Proper r) : r.isEmpty = false ∧ nameOf r.entries = .ok (value r "name") := by
  obtain ⟨⟨v, hv⟩, hn, -⟩ := h [] r rfl
  have hl := mem_lookup _ hn _ _ hv
  constructor
  · unfold Reg.isEmpty
    cases he : r.entries with
    | nil => rw [he] at hv; simp at hv
    | cons _ _ => simp
  · unfold nameOf
    rw [hl, value_get, get, hl]
    rfl

lemma reportAll_append (a b : List (String × Diff)) (i : Nat) (la lb : List Line) (ha : reportAll a i = .ok la) (hb : reportAll b i = .ok lb) :
    reportAll (a ++ b) i = .ok (la ++ lb) := by
  induction a generalizing la with
  | nil =>
    simp only [reportAll, Except.ok.injEq] at ha
    subst ha
    exact hb
  | cons x a ih =>
    obtain ⟨n, d⟩ := x
    rw [List.cons_append]
    cases d with
    | tuple v1 v2 =>
      rw [reportAll] at ha ⊢
      cases hr : reportAll a i with
      | error e => rw [hr] at ha; simp at ha
      | ok l =>
        rw [hr] at ha
        simp only [Except.ok.injEq] at ha
        rw [ih l hr, ← ha]
        rfl
    | nothing =>
      simp [reportAll, report] at ha
    | dict e c =>
      rw [reportAll] at ha ⊢
      · cases h1 : report (.dict e c) (i + 2) (some n) with
        | error e => rw [h1] at ha; simp at ha
        | ok l1 =>
          rw [h1] at ha
          cases hr : reportAll a i with
          | error e => rw [hr] at ha; simp at ha
          | ok l =>
            rw [hr] at ha
            simp only [Except.ok.injEq] at ha
            rw [ih l hr, ← ha]
            simp
      · simp
      · simp

lemma rest_ok (c1 : List (String × Reg)) (i : Nat) (c2 : List (String × Reg)) (h : ∀ n r, (n, r) ∈ c2 → Proper r) :
    ∃ ds ls, rest c1 c2 = .ok ds ∧ reportAll ds i = .ok ls ∧
      ∀ l, l ∈ ls ↔ ∃ n r, (n, r) ∈ c2 ∧ c1.lookup n = none ∧ l = .only (i + 2) n none (value r "name") := by
  induction c2 with
  | nil => exact ⟨[], [], rfl, rfl, by simp⟩
  | cons x c2 ih =>
    obtain ⟨n, r⟩ := x
    obtain ⟨ds, ls, h1, h2, h3⟩ := ih fun n r hm => h n r (List.mem_cons_of_mem _ hm)
    rcases hl : c1.lookup n with _ | q
    · obtain ⟨p1, p2⟩ := proper_name r (h n r (by simp))
      have ho : onlySecond r = .ok (.tuple none (value r "name")) := by
        unfold onlySecond
        rw [p1, p2]
        rfl
      refine ⟨(n, .tuple none (value r "name")) :: ds, .only (i + 2) n none (value r "name") :: ls, ?_, ?_, ?_⟩
      · unfold rest
        rw [hl, ho, h1]
        rfl
      · rw [reportAll, h2]
      · intro l
        rw [List.mem_cons, h3]
        constructor
        · rintro (rfl | ⟨n', r', hm, hn, rfl⟩)
          · exact ⟨n, r, by simp, hl, rfl⟩
          · exact ⟨n', r', List.mem_cons_of_mem _ hm, hn, rfl⟩
        · rintro ⟨n', r', hm, hn, rfl⟩
          rcases List.mem_cons.mp hm with hm | hm
          · simp only [Prod.mk.injEq] at hm
            obtain ⟨rfl, rfl⟩ := hm
            exact .inl rfl
          · exact .inr ⟨n', r', hm, hn, rfl⟩
    · refine ⟨ds, ls, by unfold rest; rw [hl]; exact h1, h2, fun l => (h3 l).trans ?_⟩
      constructor
      · rintro ⟨n', r', hm, hn, rfl⟩
        exact ⟨n', r', List.mem_cons_of_mem _ hm, hn, rfl⟩
      · rintro ⟨n', r', hm, hn, rfl⟩
        rcases List.mem_cons.mp hm with hm | hm
        · simp only [Prod.mk.injEq] at hm
          obtain ⟨rfl, rfl⟩ := hm
          rw [hl] at hn
          simp at hn
        · exact ⟨n', r', hm, hn, rfl⟩

/-- the claim about one registry -/
def Claim (r1 : Reg) : Prop := ∀ (r2 : Reg) (i : Nat) (name name' : Option String), Proper r1 → Proper r2 →
  ∃ d c ls, compare r1 r2 name = .ok (.dict d c) ∧ report (.dict d c) i name' = .ok ls ∧ ∀ l, Tells l → (l ∈ ls ↔ Differs r1 r2 i l)

lemma all_ok (c2 : List (String × Reg)) (i : Nat) (h2 : ∀ n r, c2.lookup n = some r → Proper r) (c1 : List (String × Reg))
    (h1 : ∀ n r, (n, r) ∈ c1 → Proper r ∧ Claim r) :
    ∃ ds ls, compareAll c1 c2 = .ok ds ∧ reportAll ds i = .ok ls ∧
      ∀ l, Tells l → (l ∈ ls ↔ (∃ n r, (n, r) ∈ c1 ∧ c2.lookup n = none ∧ l = .only (i + 2) n (value r "name") none) ∨
        ∃ n r q, (n, r) ∈ c1 ∧ c2.lookup n = some q ∧ Differs r q (i + 2) l) := by
  induction c1 with
  | nil => exact ⟨[], [], rfl, rfl, by simp⟩
  | cons x c1 ih =>
    obtain ⟨n, r⟩ := x
    obtain ⟨ds, ls, h3, h4, h5⟩ := ih fun n r hm => h1 n r (List.mem_cons_of_mem _ hm)
    obtain ⟨hp, hc⟩ := h1 n r (by simp)
    rcases hl : c2.lookup n with _ | q
    · obtain ⟨p1, p2⟩ := proper_name r hp
      have ho : compare r ((c2.lookup n).getD .empty) (some n) = .ok (.tuple (value r "name") none) := by
        rw [hl]
        obtain ⟨e1, k1⟩ := r
        rw [compare, if_neg]
        · rw [show nameOf e1 = .ok (value (.mk e1 k1) "name") from p2]
          rfl
        · rintro ⟨a, b⟩
          subst a
          simp [Reg.isEmpty, Reg.entries, Reg.components, b] at p1
      refine ⟨(n, .tuple (value r "name") none) :: ds, .only (i + 2) n (value r "name") none :: ls, ?_, ?_, ?_⟩
      · rw [compareAll, ho, h3]
      · rw [reportAll, h4]
      · intro l ht
        rw [List.mem_cons, h5 l ht]
        constructor
        · rintro (rfl | ⟨n', r', hm, hn, rfl⟩ | ⟨n', r', q', hm, hn, hd⟩)
          · exact .inl ⟨n, r, by simp, hl, rfl⟩
          · exact .inl ⟨n', r', List.mem_cons_of_mem _ hm, hn, rfl⟩
          · exact .inr ⟨n', r', q', List.mem_cons_of_mem _ hm, hn, hd⟩
        · rintro (⟨n', r', hm, hn, rfl⟩ | ⟨n', r', q', hm, hn, hd⟩)
          · rcases List.mem_cons.mp hm with hm | hm
            · simp only [Prod.mk.injEq] at hm
              obtain ⟨rfl, rfl⟩ := hm
              exact .inl rfl
            · exact .inr (.inl ⟨n', r', hm, hn, rfl⟩)
          · rcases List.mem_cons.mp hm with hm | hm
            · simp only [Prod.mk.injEq] at hm
              obtain ⟨rfl, rfl⟩ := hm
              rw [hl] at hn
              simp at hn
            · exact .inr (.inr ⟨n', r', q', hm, hn, hd⟩)
    · obtain ⟨d, c, l0, g1, g2, g3⟩ := hc q (i + 2) (some n) (some n) hp (h2 n q hl)
      refine ⟨(n, .dict d c) :: ds, l0 ++ ls, ?_, ?_, ?_⟩
      · rw [compareAll, hl, Option.getD_some, g1, h3]
      · rw [reportAll]
        · rw [g2, h4]
        · simp
      · intro l ht
        rw [List.mem_append, h5 l ht, g3 l ht]
        constructor
        · rintro (hd | ⟨n', r', hm, hn, rfl⟩ | ⟨n', r', q', hm, hn, hd⟩)
          · exact .inr ⟨n, r, q, by simp, hl, hd⟩
          · exact .inl ⟨n', r', List.mem_cons_of_mem _ hm, hn, rfl⟩
          · exact .inr ⟨n', r', q', List.mem_cons_of_mem _ hm, hn, hd⟩
        · rintro (⟨n', r', hm, hn, rfl⟩ | ⟨n', r', q', hm, hn, hd⟩)
          · rcases List.mem_cons.mp hm with hm | hm
            · simp only [Prod.mk.injEq] at hm
              obtain ⟨rfl, rfl⟩ := hm
              rw [hl] at hn
              simp at hn
            · exact .inr (.inl ⟨n', r', hm, hn, rfl⟩)
          · rcases List.mem_cons.mp hm with hm | hm
            · simp only [Prod.mk.injEq] at hm
              obtain ⟨rfl, rfl⟩ := hm
              rw [hl] at hn
              obtain rfl := Option.some.inj hn
              exact .inl hd
            · exact .inr (.inr ⟨n', r', q', hm, hn, hd⟩)

lemma claim_all : ∀ (m : Nat) (r1 : Reg), sizeOf r1 ≤ m → Claim r1 := by
  intro m
  induction m with
  | zero =>
    rintro ⟨e1, c1⟩ h
    simp at h
  | succ m ih =>
    rintro ⟨e1, c1⟩ hm r2 i name name' hp1 hp2
    obtain ⟨q1, q2⟩ := proper_name _ hp1
    obtain ⟨s1, s2⟩ := proper_name _ hp2
    obtain ⟨-, n1, m1, k1⟩ := hp1 [] _ rfl
    obtain ⟨-, n2, m2, k2⟩ := hp2 [] _ rfl
    have hcl : ∀ n r, (n, r) ∈ c1 → Proper r ∧ Claim r := by
      intro n r hr
      refine ⟨proper_part _ _ n hp1 (mem_lookup _ m1 _ _ hr), ih r ?_⟩
      have := List.sizeOf_lt_of_mem hr
      simp at this hm
      omega
    obtain ⟨t, ht⟩ : ∃ t : Val, titleOf name (value (.mk e1 c1) "name") = t := ⟨_, rfl⟩
    set d := second e1 r2.entries (first r2.entries e1 [("name", .title t)]) with hd
    have hboth : ∀ k v, k ≠ "name" → ((k, v) ∈ d ↔ get e1 k ≠ get r2.entries k ∧ v = .pair (get e1 k) (get r2.entries k)) :=
      fun k v hk => mem_both e1 r2.entries n1 n2 _ k v hk
    obtain ⟨ls, c1', c2'⟩ := changes_ok i d (by
      intro k v hkv hk
      obtain ⟨a, b⟩ := (hboth k v hk).mp hkv
      refine ⟨?_, _, _, b⟩
      rintro rfl
      apply a
      unfold get
      rw [(lookup_none e1 _).mpr k1, (lookup_none _ _).mpr k2])
    have htitle : ∃ t', heading d name' = .ok t' := by
      unfold heading
      split_ifs
      · obtain ⟨w, hw⟩ := keep_second e1 r2.entries _ (keep_first r2.entries e1 [("name", .title t)] ⟨_, List.mem_singleton.mpr rfl⟩)
        rcases hl : d.lookup "name" with _ | v
        · exact absurd hw ((lookup_none _ _).mp hl w)
        · exact ⟨v, rfl⟩
      · exact ⟨_, rfl⟩
    obtain ⟨t', ht'⟩ := htitle
    have hval : ∀ l, l ∈ ls → Differs (.mk e1 c1) r2 i l := by
      intro l hl
      obtain ⟨k, v1, v2, rfl, hk, hm⟩ := (c2' l).mp hl
      obtain ⟨a, b⟩ := (hboth _ _ hk).mp hm
      obtain ⟨rfl, rfl⟩ := Entry.pair.inj b
      have := Differs.value (r1 := .mk e1 c1) (r2 := r2) (i := i) (k := k) hk (by rw [value_get, value_get]; exact a)
      rw [value_get, value_get] at this
      exact this
    have hval' : ∀ k, k ≠ "name" → value (.mk e1 c1) k ≠ value r2 k → Line.changed i k (value (.mk e1 c1) k) (value r2 k) ∈ ls := by
      intro k hk hne
      rw [c2']
      refine ⟨k, _, _, rfl, hk, (hboth _ _ hk).mpr ?_⟩
      rw [value_get, value_get] at hne ⊢
      exact ⟨hne, rfl⟩
    have hstart : ¬ (e1 = [] ∧ c1.isEmpty = true) := by
      rintro ⟨a, b⟩
      subst a
      simp [Reg.isEmpty, Reg.entries, Reg.components, b] at q1
    have hname : nameOf e1 = .ok (value (.mk e1 c1) "name") := q2
    by_cases hcc : c1.isEmpty = true ∧ r2.components.isEmpty = true
    · refine ⟨d, [], .title i t' :: ls, ?_, ?_, ?_⟩
      · rw [compare, if_neg hstart, hname]
        dsimp only
        rw [s1, if_neg (by simp), if_pos hcc, ht]
      · rw [report, ht']
        dsimp only
        rw [c1']
        rfl
      · intro l hT
        rw [List.mem_cons]
        constructor
        · rintro (rfl | h)
          · exact absurd hT (by simp [Tells])
          · exact hval l h
        · intro h
          have z1 : c1 = [] := List.isEmpty_iff.mp hcc.1
          have z2 : r2.components = [] := List.isEmpty_iff.mp hcc.2
          cases h with
          | value hk hne => exact .inr (hval' _ hk hne)
          | left h _ => rw [part_one] at h; simp [Reg.components, z1] at h
          | right _ h => rw [part_one, z2] at h; simp at h
          | inside h _ _ => rw [part_one] at h; simp [Reg.components, z1] at h
    · obtain ⟨ds, la, f1, f2, f3⟩ := all_ok r2.components i (fun n r h => proper_part _ _ n hp2 h) c1 hcl
      obtain ⟨ds', lr, g1, g2, g3⟩ := rest_ok c1 i r2.components (fun n r h => proper_part _ _ n hp2 (mem_lookup _ m2 _ _ h))
      have hr := reportAll_append ds ds' i la lr f2 g2
      refine ⟨d, ds ++ ds', if (ds ++ ds').isEmpty then .title i t' :: ls else .title i t' :: ls ++ .components i :: (la ++ lr), ?_, ?_, ?_⟩
      · rw [compare, if_neg hstart, hname]
        dsimp only
        rw [s1, if_neg (by simp), if_neg hcc, f1, g1, ht]
      · rw [report, ht']
        dsimp only
        rw [c1']
        dsimp only
        split_ifs with h
        · rfl
        · rw [hr]
      · intro l hT
        have hmem : l ∈ (if (ds ++ ds').isEmpty then .title i t' :: ls else .title i t' :: ls ++ .components i :: (la ++ lr)) ↔
            l ∈ ls ∨ l ∈ la ∨ l ∈ lr := by
          have hne : ∀ t, l ≠ .title i t := by rintro t rfl; simp [Tells] at hT
          have hnc : l ≠ .components i := by rintro rfl; simp [Tells] at hT
          split_ifs with h
          · have h0 : ds ++ ds' = [] := List.isEmpty_iff.mp h
            rw [h0] at hr
            simp only [reportAll, Except.ok.injEq] at hr
            have : la = [] ∧ lr = [] := List.append_eq_nil_iff.mp hr.symm
            simp [this.1, this.2, hne]
          · simp [hne, hnc]
        rw [hmem, f3 l hT, g3]
        constructor
        · rintro (h | (⟨n, r, hr, hn, rfl⟩ | ⟨n, r, q, hr, hn, hdd⟩) | ⟨n, r, hr, hn, rfl⟩)
          · exact hval l h
          · exact .left (by rw [part_one]; exact mem_lookup _ m1 _ _ hr) (by rw [part_one]; exact hn)
          · exact .inside (by rw [part_one]; exact mem_lookup _ m1 _ _ hr) (by rw [part_one]; exact hn) hdd
          · exact .right (by rw [part_one]; exact hn) (by rw [part_one]; exact mem_lookup _ m2 _ _ hr)
        · intro h
          cases h with
          | value hk hne => exact .inl (hval' _ hk hne)
          | left h h' =>
            rw [part_one] at h h'
            exact .inr (.inl (.inl ⟨_, _, lookup_mem _ _ _ h, h', rfl⟩))
          | right h h' =>
            rw [part_one] at h h'
            exact .inr (.inr ⟨_, _, lookup_mem _ _ _ h', h, rfl⟩)
          | inside h h' hdd =>
            rw [part_one] at h h'
            exact .inr (.inl (.inr ⟨_, _, _, lookup_mem _ _ _ h, h', hdd⟩))

lemma differs_tells {r1 r2 : Reg} {i : Nat} {l : Line} (h : Differs r1 r2 i l) : Tells l := by
  induction h with
  | value => trivial
  | left => trivial
  | right => trivial
  | inside _ _ _ ih => exact ih

lemma differs_self {r1 r2 : Reg} {i : Nat} {l : Line} (h : Differs r1 r2 i l) : r1 ≠ r2 := by
  induction h with
  | value _ h => rintro rfl; exact h rfl
  | left h h' => rintro rfl; rw [h] at h'; simp at h'
  | right h h' => rintro rfl; rw [h] at h'; simp at h'
  | inside h h' _ ih => rintro rfl; rw [h] at h'; exact ih (Option.some.inj h')

end Verif.RegCmp
