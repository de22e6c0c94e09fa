import Verif.Lemmas.SolidPyr
/-!
Helper lemmas: the first object hit.
-/

namespace Verif.Solid

theorem findContaining_some {tol : ℝ} {p : V3 ℝ} (l : List Shape) (i k : Nat)
    (h : findContaining tol p l i = .ok (some k)) :
    i ≤ k ∧ ∃ s, l[k - i]? = some s ∧ locate tol s p = .ok .inside := by
  induction l generalizing i with
  | nil => simp [findContaining] at h
  | cons a l ih =>
    rw [findContaining] at h
    cases ha : locate tol a p with
    | error e => rw [ha] at h; simp [bind, Except.bind] at h
    | ok loc =>
      rw [ha] at h
      simp only [bind, Except.bind] at h
      split at h
      · rename_i hl
        subst hl
        simp only [Except.ok.injEq, Option.some.injEq] at h
        subst h
        exact ⟨le_rfl, a, by simp, ha⟩
      · obtain ⟨h1, s, h2, h3⟩ := ih (i + 1) h
        refine ⟨by omega, s, ?_, h3⟩
        rw [show k - i = (k - (i + 1)) + 1 by omega, List.getElem?_cons_succ]
        exact h2

theorem forwardIntersect_spec {tol par : ℝ} {s : Shape} {p v : V3 ℝ} {ds : List ℝ}
    (h : forwardIntersect tol par s p v = .ok ds) :
    ∃ ts, intersect tol par s p v = .ok ts ∧ ds = ts.filter (fun t => decide (0 ≤ t)) := by
  unfold forwardIntersect at h
  cases hi : intersect tol par s p v with
  | error e => rw [hi] at h; simp [bind, Except.bind] at h
  | ok ts =>
    rw [hi] at h
    simp only [bind, Except.bind, Except.ok.injEq] at h
    refine ⟨ts, rfl, ?_⟩
    rw [← h]
    congr 1
    funext t
    simp only [← decide_not, not_lt]

theorem pairLoop_some {tol : ℝ} {shapes : List Shape} {p v : V3 ℝ} (ts : List ℝ) (prev : ℝ)
    (h0 : 0 ≤ prev) (hts : ∀ t ∈ ts, 0 ≤ t) (i : Nat)
    (h : pairLoop tol shapes p v prev ts = .ok (some i)) :
    ∃ s, shapes[i]? = some s ∧ ∃ t, 0 ≤ t ∧ locate tol s (at' p v t) = .ok .inside := by
  induction ts generalizing prev with
  | nil => simp [pairLoop] at h
  | cons now ts ih =>
    rw [pairLoop] at h
    have hn := hts now (by simp)
    cases hf : findContaining tol (p + ((prev + now) / 2) • v) shapes 0 with
    | error e => rw [hf] at h; simp [bind, Except.bind] at h
    | ok r =>
      rw [hf] at h
      simp only [bind, Except.bind] at h
      cases r with
      | some k =>
        simp only [Except.ok.injEq, Option.some.injEq] at h
        subst h
        obtain ⟨_, s, h2, h3⟩ := findContaining_some _ _ _ hf
        exact ⟨s, by simpa using h2, (prev + now) / 2, by linarith, h3⟩
      | none => exact ih now hn (fun t ht => hts t (by simp [ht])) h

/-- what the computation of the first hit looks like -/
theorem find1stHit_cases {tol par : ℝ} {shapes : List Shape} {p v : V3 ℝ} {r : Option Nat}
    (h : find1stHit tol par shapes p v = .ok r) :
    ∃ ts, intersect tol par (.union shapes) p v = .ok ts ∧
    ((ts.filter (fun t => decide (0 ≤ t)) = [] ∧ r = none) ∨
      ∃ d0 rest ret, ts.filter (fun t => decide (0 ≤ t)) = d0 :: rest ∧
        ((rest.length % 2 = 0 ∧ findContaining tol (at' p v (d0 / 2)) shapes 0 = .ok ret) ∨
          ∃ d1 rest', rest = d1 :: rest' ∧ rest'.length % 2 = 0 ∧
            findContaining tol (at' p v ((d0 + d1) / 2)) shapes 0 = .ok ret) ∧
        ((anyOnBorder tol p shapes = .ok false ∧ r = ret) ∨
          (anyOnBorder tol p shapes = .ok true ∧
            pairLoop tol shapes p v 0 (d0 :: rest) = .ok r))) := by
  unfold find1stHit at h
  cases hf : forwardIntersect tol par (.union shapes) p v with
  | error e => rw [hf] at h; simp [bind, Except.bind] at h
  | ok ds =>
    obtain ⟨ts, hts, hds⟩ := forwardIntersect_spec hf
    refine ⟨ts, hts, ?_⟩
    rw [hf] at h
    simp only [bind, Except.bind] at h
    rw [← hds]
    cases ds with
    | nil => simp only [Except.ok.injEq] at h; exact .inl ⟨rfl, h.symm⟩
    | cons d0 rest =>
      right
      simp only at h
      have tail : ∀ ret : Option Nat, (anyOnBorder tol p shapes).bind (fun b =>
          if (!b) = true then .ok ret else pairLoop tol shapes p v 0 (d0 :: rest)) = .ok r →
          ((anyOnBorder tol p shapes = .ok false ∧ r = ret) ∨
          (anyOnBorder tol p shapes = .ok true ∧
            pairLoop tol shapes p v 0 (d0 :: rest) = .ok r)) := by
        intro ret h
        cases hb : anyOnBorder tol p shapes with
        | error e => rw [hb] at h; simp [Except.bind] at h
        | ok b =>
          rw [hb] at h
          cases b with
          | false => simp [Except.bind] at h; exact .inl ⟨rfl, h.symm⟩
          | true => simp [Except.bind] at h; exact .inr ⟨rfl, h⟩
      split at h
      · rename_i hodd
        cases hc : findContaining tol (p + (d0 / 2) • v) shapes 0 with
        | error e => rw [hc] at h; simp at h
        | ok ret =>
          rw [hc] at h
          refine ⟨d0, rest, ret, rfl, .inl ⟨?_, hc⟩, tail ret ?_⟩
          · rw [List.length_cons] at hodd; omega
          · unfold Except.bind; simpa using h
      · rename_i hodd
        cases rest with
        | nil => simp at hodd
        | cons d1 rest' =>
          simp only at h
          cases hc : findContaining tol (p + ((d0 + d1) / 2) • v) shapes 0 with
          | error e => rw [hc] at h; simp at h
          | ok ret =>
            rw [hc] at h
            refine ⟨d0, _, ret, rfl, .inr ⟨d1, rest', rfl, ?_, hc⟩, tail ret ?_⟩
            · simp only [List.length_cons] at hodd; omega
            · unfold Except.bind; simpa using h

theorem union_inside {tol : ℝ} (l : List Shape) (hw : ∀ s ∈ l, WF s) {p : V3 ℝ} {s : Shape}
    (hs : s ∈ l) (hi : locate tol s p = .ok .inside) : locate tol (.union l) p = .ok .inside := by
  rw [locate]
  have : ∀ b, locUnion tol l p b = .ok .inside := by
    induction l with
    | nil => simp at hs
    | cons a l ih =>
      intro b
      rw [locUnion]
      obtain ⟨r, hr⟩ := locate_total tol a (hw a (by simp)) p
      rw [hr]
      simp only [bind, Except.bind]
      split
      · rfl
      · rename_i hne
        rcases List.mem_cons.1 hs with rfl | hs
        · rw [hi] at hr; exact absurd (Except.ok.inj hr).symm hne
        · exact ih (fun s hs => hw s (by simp [hs])) hs _
  exact this true

theorem anyOnBorder_false {tol : ℝ} {p : V3 ℝ} (l : List Shape)
    (h : ∀ s ∈ l, locate tol s p = .ok .outside) : anyOnBorder tol p l = .ok false := by
  induction l with
  | nil => rfl
  | cons a l ih =>
    rw [anyOnBorder, h a (by simp)]
    simp only [bind, Except.bind, reduceCtorEq, if_false]
    exact ih fun s hs => h s (by simp [hs])

theorem findContaining_found {tol : ℝ} {p : V3 ℝ} (l : List Shape) (hw : ∀ s ∈ l, WF s)
    (h : ∃ s ∈ l, locate tol s p = .ok .inside) (i : Nat) :
    ∃ k, findContaining tol p l i = .ok (some k) := by
  induction l generalizing i with
  | nil => simp at h
  | cons a l ih =>
    rw [findContaining]
    obtain ⟨r, hr⟩ := locate_total tol a (hw a (by simp)) p
    rw [hr]
    simp only [bind, Except.bind]
    by_cases hi : r = .inside
    · rw [if_pos hi]; exact ⟨i, rfl⟩
    · rw [if_neg hi]
      obtain ⟨s, hs, hl⟩ := h
      rcases List.mem_cons.1 hs with rfl | hs
      · rw [hr] at hl; exact absurd (Except.ok.inj hl) hi
      · exact ih (fun s hs => hw s (by simp [hs])) ⟨s, hs, hl⟩ (i + 1)

theorem found_if_middle_inside {tol par : ℝ} {shapes : List Shape} (hw : ∀ s ∈ shapes, WF s)
    {p v : V3 ℝ} (hout : ∀ s ∈ shapes, locate tol s p = .ok .outside) {d0 d1 : ℝ} {rest : List ℝ}
    (hds : forwardIntersect tol par (.union shapes) p v = .ok (d0 :: d1 :: rest))
    (heven : rest.length % 2 = 0)
    (hin : ∃ s ∈ shapes, locate tol s (p + ((d0 + d1) / 2) • v) = .ok .inside) :
    ∃ i s, find1stHit tol par shapes p v = .ok (some i) ∧ shapes[i]? = some s ∧
      locate tol s (p + ((d0 + d1) / 2) • v) = .ok .inside := by
  obtain ⟨k, hk⟩ := findContaining_found shapes hw hin 0
  obtain ⟨_, s, hs, hl⟩ := findContaining_some shapes 0 k hk
  refine ⟨k, s, ?_, by simpa using hs, hl⟩
  unfold find1stHit
  rw [hds]
  simp only [bind, Except.bind, List.length_cons]
  rw [if_neg (by omega), hk, anyOnBorder_false shapes hout]
  simp

theorem at_time_zero (p v : V3 ℝ) : at' p v 0 = p := by
  apply V3.ext <;> simp [at_x, at_y, at_z]

theorem hit_inside {tol par : ℝ} {shapes : List Shape}
    {p v : V3 ℝ} {i : Nat} (h : find1stHit tol par shapes p v = .ok (some i)) :
    ∃ s, shapes[i]? = some s ∧ ∃ t, 0 ≤ t ∧ locate tol s (at' p v t) = .ok .inside := by
  obtain ⟨ts, hts, hc | ⟨d0, rest, ret, hd, hret, hend⟩⟩ := find1stHit_cases h
  · exact absurd hc.2 (by simp)
  have hpos : ∀ t ∈ d0 :: rest, 0 ≤ t := by
    intro t ht
    rw [← hd] at ht
    simpa using (List.mem_filter.1 ht).2
  rcases hend with ⟨_, rfl⟩ | ⟨_, hp⟩
  · rcases hret with ⟨_, hf⟩ | ⟨d1, rest', rfl, _, hf⟩
    · obtain ⟨_, s, h2, h3⟩ := findContaining_some _ _ _ hf
      exact ⟨s, by simpa using h2, _, by linarith [hpos d0 (by simp)], h3⟩
    · obtain ⟨_, s, h2, h3⟩ := findContaining_some _ _ _ hf
      exact ⟨s, by simpa using h2, _, by linarith [hpos d0 (by simp), hpos d1 (by simp)], h3⟩
  · exact pairLoop_some _ 0 le_rfl hpos i hp

theorem hit_real {tol par : ℝ} (h0 : 0 < tol) {shapes : List Shape} (hw : ∀ s ∈ shapes, WF s)
    {p v : V3 ℝ} {i : Nat} (h : find1stHit tol par shapes p v = .ok (some i)) :
    ∃ s, shapes[i]? = some s ∧ ∃ t, 0 ≤ t ∧ Interior (Mem s) (at' p v t) := by
  obtain ⟨s, hs, t, ht, hl⟩ := hit_inside h
  exact ⟨s, hs, t, ht, (locate_sound h0 s (hw s (List.mem_of_getElem? hs)) _).1 hl⟩

/-- between two consecutive reported times, a shape that contains one point of the path
contains all -/
theorem stays_inside {tol par : ℝ} (h0 : 0 < tol) (hpar : 0 < par) {shapes : List Shape}
    (hw : ∀ s ∈ shapes, WF s) (hap : Apart shapes) {p v : V3 ℝ}
    (hg : ∀ s ∈ shapes, Generic tol par s p v) {ts : List ℝ}
    (hts : intersect tol par (.union shapes) p v = .ok ts) {i : Nat} {s : Shape}
    (hs : shapes[i]? = some s) {m t : ℝ} (hm : Mem s (at' p v m))
    (hno : ∀ x ∈ ts, ¬ ((m ≤ x ∧ x ≤ t) ∨ (t ≤ x ∧ x ≤ m))) : Mem s (at' p v t) := by
  have hsm := List.mem_of_getElem? hs
  have hwU : WF (.union shapes) := by simp only [WF, wfAll_iff]; exact hw
  have hgU : Generic tol par (.union shapes) p v := by simp only [Generic, genericAll_iff]; exact hg
  have hcU := intersect_catches h0 hpar _ hwU p v ts hgU hts
  obtain ⟨us, hus, rfl⟩ := intersect_union hts
  obtain ⟨k1, k2⟩ := gather_spec shapes us hus
  obtain ⟨ui, hui⟩ := k1 s hsm
  have hci := intersect_catches h0 hpar s (hw s hsm) p v ui (hg s hsm) hui
  have memU : ∀ q, Mem s q → Mem (.union shapes) q := by
    intro q hq; simp only [Mem, memAny_iff]; exact ⟨s, hsm, hq⟩
  -- every point between is in the union
  have hU : ∀ x, ((m ≤ x ∧ x ≤ t) ∨ (t ≤ x ∧ x ≤ m)) → Mem (.union shapes) (at' p v x) := by
    intro x hx
    by_contra hn
    rcases hx with ⟨h1, h2⟩ | ⟨h1, h2⟩
    · obtain ⟨y, hy, h3, h4⟩ := hcU m x h1 (fun h => hn (h.1 (memU _ hm)))
      exact hno y hy (.inl ⟨h3, by linarith⟩)
    · obtain ⟨y, hy, h3, h4⟩ := hcU x m h2 (fun h => hn (h.2 (memU _ hm)))
      exact hno y hy (.inr ⟨by linarith, h4⟩)
  have loc : ∀ x, ((m ≤ x ∧ x ≤ t) ∨ (t ≤ x ∧ x ≤ m)) →
      ∃ ε > 0, ∀ y, |y - x| < ε → (Mem s (at' p v y) ↔ Mem s (at' p v x)) := by
    intro x hx
    by_cases hxi : x ∈ ui
    · obtain ⟨r, hr⟩ := locate_total tol (.union shapes) hwU (at' p v x)
      have hsound := locate_sound h0 _ hwU (at' p v x)
      cases r with
      | outside => exact absurd (hU x hx) (Interior.self (hsound.2 hr))
      | onborder =>
        exfalso
        exact hno x (mem_sort.2 ((k2 x).2 ⟨⟨s, hsm, ui, hui, hxi⟩, hr⟩)) hx
      | inside =>
        rw [locate] at hr
        obtain ⟨s', hs', hl'⟩ := (locUnion_spec tol shapes _ true .inside hr).2.1 rfl
        have hint := (locate_sound h0 s' (hw s' hs') _).1 hl'
        obtain ⟨j, hj⟩ := List.getElem?_of_mem hs'
        by_cases hij : i = j
        · subst hij
          rw [hs] at hj
          cases hj
          obtain ⟨ε, hε, he⟩ := hint.path
          exact ⟨ε, hε, fun y hy => ⟨fun _ => hint.self, fun _ => he y hy⟩⟩
        · obtain ⟨ε, hε, he⟩ := hint.open.path
          refine ⟨ε, hε, fun y hy => ⟨fun h => ?_, fun h => ?_⟩⟩
          · exact absurd (he y hy) (hap i j hij s s' hs hj _ h)
          · exact absurd hint (hap i j hij s s' hs hj _ h)
    · exact hci.locally hxi
  rcases le_total m t with h | h
  · exact (const_of_locally (f := fun x => Mem s (at' p v x)) h
      (fun x h1 h2 => loc x (.inl ⟨h1, h2⟩))).1 hm
  · exact (const_of_locally (f := fun x => Mem s (at' p v x)) h
      (fun x h1 h2 => loc x (.inr ⟨h1, h2⟩))).2 hm

theorem first_from_outside {tol par : ℝ} (h0 : 0 < tol) (hpar : 0 < par) {shapes : List Shape}
    (hw : ∀ s ∈ shapes, WF s) (hap : Apart shapes) {p v : V3 ℝ}
    (hg : ∀ s ∈ shapes, Generic tol par s p v)
    (hout : ∀ s ∈ shapes, locate tol s p = .ok .outside) {i : Nat}
    (h : find1stHit tol par shapes p v = .ok (some i)) :
    ∃ s, shapes[i]? = some s ∧ ∃ a b, FirstMeets shapes p v s a b := by
  obtain ⟨ts, hts, hc | ⟨d0, rest, ret, hd, hret, hend⟩⟩ := find1stHit_cases h
  · exact absurd hc.2 (by simp)
  rw [anyOnBorder_false shapes hout] at hend
  rcases hend with ⟨_, rfl⟩ | ⟨hb, _⟩
  swap
  · exact absurd hb (by simp)
  have hwU : WF (.union shapes) := by simp only [WF, wfAll_iff]; exact hw
  have hgU : Generic tol par (.union shapes) p v := by simp only [Generic, genericAll_iff]; exact hg
  have hcU := intersect_catches h0 hpar _ hwU p v ts hgU hts
  have hsorted := intersect_sorted (.union shapes) p v ts hts
  have hsd : (d0 :: rest).Pairwise (· ≤ ·) := by rw [← hd]; exact hsorted.filter _
  have memd : ∀ x, x ∈ d0 :: rest ↔ x ∈ ts ∧ 0 ≤ x := by
    intro x; rw [← hd]; simp [List.mem_filter]
  have hd0 : 0 ≤ d0 := ((memd d0).1 (by simp)).2
  have before : ∀ t, 0 ≤ t → t < d0 → ¬ Mem (.union shapes) (at' p v t) := by
    intro t ht1 ht2 hmem
    have hstart : ¬ Mem (.union shapes) (at' p v 0) := by
      rw [at_time_zero]
      simp only [Mem, memAny_iff]
      rintro ⟨s, hs, hm⟩
      exact Interior.self ((locate_sound h0 s (hw s hs) p).2 (hout s hs)) hm
    obtain ⟨x, hx, h1, h2⟩ := hcU 0 t ht1 (fun h => hstart (h.2 hmem))
    have hxd := (memd x).2 ⟨hx, h1⟩
    rcases List.mem_cons.1 hxd with rfl | hxd
    · linarith
    · have := (List.pairwise_cons.1 hsd).1 x hxd; linarith
  have toU : ∀ s ∈ shapes, ∀ q, Mem s q → Mem (.union shapes) q := by
    intro s hs q hq; simp only [Mem, memAny_iff]; exact ⟨s, hs, hq⟩
  rcases hret with ⟨_, hf⟩ | ⟨d1, rest', rfl, _, hf⟩
  · -- odd: the point before the first crossing would have to be inside
    obtain ⟨_, s, h2, h3⟩ := findContaining_some _ _ _ hf
    have h2 : shapes[i]? = some s := by simpa using h2
    have hsm := List.mem_of_getElem? h2
    have hint := (locate_sound h0 s (hw s hsm) _).1 h3
    exfalso
    rcases eq_or_lt_of_le hd0 with hz | hz
    · rw [← hz] at h3
      simp only [zero_div, at_time_zero] at h3
      rw [hout s hsm] at h3
      simp at h3
    · exact before (d0 / 2) (by linarith) (by linarith) (toU s hsm _ hint.self)
  · obtain ⟨_, s, h2, h3⟩ := findContaining_some _ _ _ hf
    have h2 : shapes[i]? = some s := by simpa using h2
    have hsm := List.mem_of_getElem? h2
    have hint := (locate_sound h0 s (hw s hsm) _).1 h3
    have hle : d0 ≤ d1 := (List.pairwise_cons.1 hsd).1 d1 (by simp)
    have hlt : d0 < d1 := by
      rcases eq_or_lt_of_le hle with he | hl
      · exfalso
        rw [← he, add_self_div_two] at h3
        have hin := union_inside shapes hw hsm h3
        have hmem := ((memd d0).1 (by simp)).1
        obtain ⟨us, hus, rfl⟩ := intersect_union hts
        have := (((gather_spec shapes us hus).2 d0).1 (mem_sort.1 hmem)).2
        rw [hin] at this
        simp at this
      · exact hl
    refine ⟨s, h2, d0, d1, hd0, hlt, fun t ht1 ht2 => ?_, fun t ht1 ht2 s' hs' hm' => ?_⟩
    · refine stays_inside h0 hpar hw hap hg hts h2 hint.self fun x hx hbet => ?_
      have hx0 : d0 < x ∧ x < d1 := by
        rcases hbet with ⟨h4, h5⟩ | ⟨h4, h5⟩ <;> constructor <;> linarith
      have hxd := (memd x).2 ⟨hx, by linarith⟩
      rcases List.mem_cons.1 hxd with rfl | hxd
      · linarith
      · rcases List.mem_cons.1 hxd with rfl | hxd
        · linarith
        · have := (List.pairwise_cons.1 (List.pairwise_cons.1 hsd).2).1 x hxd
          linarith
    · exact before t ht1 ht2 (toU s' hs' _ hm')

/-- a path that starts inside an object: with an odd number of crossings ahead the answer is
that object -/
theorem first_from_inside {tol par : ℝ} (h0 : 0 < tol) (hpar : 0 < par) {shapes : List Shape}
    (hw : ∀ s ∈ shapes, WF s) (hap : Apart shapes) {p v : V3 ℝ}
    (hg : ∀ s ∈ shapes, Generic tol par s p v) {k : Nat} {sk : Shape}
    (hk : shapes[k]? = some sk) (hin : locate tol sk p = .ok .inside)
    (hnb : ∀ s ∈ shapes, locate tol s p ≠ .ok .onborder) {ds : List ℝ}
    (hds : forwardIntersect tol par (.union shapes) p v = .ok ds) (hodd : ds.length % 2 = 1)
    {i : Nat} (h : find1stHit tol par shapes p v = .ok (some i)) : i = k := by
  obtain ⟨ts', hts', hds'⟩ := forwardIntersect_spec hds
  obtain ⟨ts, hts, hc | ⟨d0, rest, ret, hd, hret, hend⟩⟩ := find1stHit_cases h
  · exact absurd hc.2 (by simp)
  rw [hts] at hts'
  rw [← Except.ok.inj hts', hd] at hds'
  subst hds'
  have hany : ∀ l : List Shape, (∀ s ∈ l, s ∈ shapes) → anyOnBorder tol p l = .ok false := by
    intro l
    induction l with
    | nil => intro _; rfl
    | cons a l ih =>
      intro hl
      rw [anyOnBorder]
      obtain ⟨r, hr⟩ := locate_total tol a (hw a (hl a (by simp))) p
      rw [hr]
      simp only [bind, Except.bind]
      rw [if_neg]
      · exact ih fun s hs => hl s (by simp [hs])
      · rintro rfl; exact hnb a (hl a (by simp)) hr
  rw [hany shapes (fun s hs => hs)] at hend
  rcases hend with ⟨_, rfl⟩ | ⟨hb, _⟩
  swap
  · exact absurd hb (by simp)
  rcases hret with ⟨_, hf⟩ | ⟨d1, rest', rfl, hev, hf⟩
  swap
  · simp only [List.length_cons] at hodd; omega
  have hkm := List.mem_of_getElem? hk
  have hsorted := intersect_sorted (.union shapes) p v ts hts
  have hsd : (d0 :: rest).Pairwise (· ≤ ·) := by rw [← hd]; exact hsorted.filter _
  have memd : ∀ x, x ∈ d0 :: rest ↔ x ∈ ts ∧ 0 ≤ x := by
    intro x; rw [← hd]; simp [List.mem_filter]
  have hd0 : 0 ≤ d0 := ((memd d0).1 (by simp)).2
  have hd0pos : 0 < d0 := by
    rcases eq_or_lt_of_le hd0 with he | hl
    · exfalso
      have hmem := ((memd d0).1 (by simp)).1
      obtain ⟨us, hus, rfl⟩ := intersect_union hts
      have := (((gather_spec shapes us hus).2 d0).1 (mem_sort.1 hmem)).2
      rw [← he, at_time_zero, union_inside shapes hw hkm hin] at this
      simp at this
    · exact hl
  have hstart := (locate_sound h0 sk (hw sk hkm) p).1 hin
  have hmid : Mem sk (at' p v (d0 / 2)) := by
    refine stays_inside h0 hpar hw hap hg hts hk (m := 0) ?_ fun x hx hbet => ?_
    · rw [at_time_zero]; exact hstart.self
    · have hx0 : 0 ≤ x ∧ x < d0 := by
        rcases hbet with ⟨h4, h5⟩ | ⟨h4, h5⟩ <;> constructor <;> linarith
      have hxd := (memd x).2 ⟨hx, hx0.1⟩
      rcases List.mem_cons.1 hxd with rfl | hxd
      · linarith
      · have := (List.pairwise_cons.1 hsd).1 x hxd; linarith
  obtain ⟨_, s, h2, h3⟩ := findContaining_some _ _ _ hf
  have h2 : shapes[i]? = some s := by simpa using h2
  have hsm := List.mem_of_getElem? h2
  have hint := (locate_sound h0 s (hw s hsm) _).1 h3
  by_contra hne
  exact hap k i (Ne.symm hne) sk s hk h2 _ hmid hint

theorem nothing_ahead {tol par : ℝ} (h0 : 0 < tol) (hpar : 0 < par) {shapes : List Shape}
    (hw : ∀ s ∈ shapes, WF s) {p v : V3 ℝ} (hg : ∀ s ∈ shapes, Generic tol par s p v)
    (hout : ∀ s ∈ shapes, locate tol s p = .ok .outside)
    (hds : forwardIntersect tol par (.union shapes) p v = .ok []) :
    find1stHit tol par shapes p v = .ok none ∧
      ∀ t, 0 ≤ t → ∀ s ∈ shapes, ¬ Mem s (at' p v t) := by
  constructor
  · unfold find1stHit
    rw [hds]
    rfl
  · obtain ⟨ts, hts, hnil⟩ := forwardIntersect_spec hds
    have hwU : WF (.union shapes) := by simp only [WF, wfAll_iff]; exact hw
    have hgU : Generic tol par (.union shapes) p v := by
      simp only [Generic, genericAll_iff]; exact hg
    have hcU := intersect_catches h0 hpar _ hwU p v ts hgU hts
    intro t ht s hs hm
    have hstart : ¬ Mem (.union shapes) (at' p v 0) := by
      rw [at_time_zero]
      simp only [Mem, memAny_iff]
      rintro ⟨s, hs, hm⟩
      exact Interior.self ((locate_sound h0 s (hw s hs) p).2 (hout s hs)) hm
    obtain ⟨x, hx, h1, h2⟩ := hcU 0 t ht (fun h => hstart (h.2 (by
      simp only [Mem, memAny_iff]; exact ⟨s, hs, hm⟩)))
    have : x ∈ ts.filter (fun t => decide (0 ≤ t)) := by simp [List.mem_filter, hx, h1]
    rw [← hnil] at this
    simp at this

end Verif.Solid
