import Verif.Spec.Composite
import Verif.Lemmas.Homog
import Verif.Lemmas.SolidHit
import Verif.Lemmas.Frames
import Mathlib.Algebra.Order.BigOperators.Group.List
/-!
Lemmas for composite scatterers.
-/

namespace Verif.Composite
open Solid Flight Homog

variable {S : Type}

theorem bind_ok {α β : Type} {x : Except Err α} {f : α → Except Err β} {b : β} :
    (x >>= f) = .ok b ↔ ∃ a, x = .ok a ∧ f a = .ok b := by
  cases x with
  | error e => simp [bind, Except.bind]
  | ok a => simp [bind, Except.bind]

/-- the sum of a function of the probabilities -/
def sumW (w : ℝ → ℝ) (l : List Ev) : ℝ := (l.map fun e => w e.p).sum

theorem sumW_nil (w : ℝ → ℝ) : sumW w [] = 0 := rfl
theorem sumW_cons (w : ℝ → ℝ) (e : Ev) (l : List Ev) : sumW w (e :: l) = w e.p + sumW w l := by
  simp [sumW]
theorem sumW_append (w : ℝ → ℝ) (l l' : List Ev) : sumW w (l ++ l') = sumW w l + sumW w l' := by
  simp [sumW]

/-- what is needed of the constituents for a bound on a sum over the neutrons -/
structure Good (c : Comp S) (tol par κ : ℝ) (w : ℝ → ℝ) (P A : ℝ → Prop) (I : S → Prop)
    (Q : Elem S → Ev → Prop) : Prop where
  one_le : 1 ≤ κ
  nonneg : ∀ p, P p → 0 ≤ w p
  less : ∀ p a, P p → A a → P (p * a) ∧ w (p * a) ≤ w p
  att_one : A 1
  att_mul : ∀ a b, A a → A b → A (a * b)
  att : ∀ e ∈ c.elems, ∀ ev q a, e.atten ev q = .ok a → A a
  hits : ∀ ev i e, find1stHit tol par c.shapes ev.r ev.v = .ok (some i) → c.elems[i]? = some e →
    Q e (e.toLocal ev)
  calls : ∀ e ∈ c.elems, ∀ s ev s' new i, I s → P ev.p → ¬ (0 ≤ ev.p ∧ ev.p < c.minP) → Q e ev →
    e.interactM s ev = .ok (s', new, i) → I s' ∧ (∀ n ∈ new, P n.p) ∧ sumW w new ≤ κ * w ev.p

namespace Good
variable {c : Comp S} {tol par κ : ℝ} {w : ℝ → ℝ} {P A : ℝ → Prop} {I : S → Prop}
  {Q : Elem S → Ev → Prop}

theorem sum_nonneg (g : Good c tol par κ w P A I Q) {l : List Ev} (h : ∀ n ∈ l, P n.p) : 0 ≤ sumW w l := by
  apply List.sum_nonneg
  intro x hx
  obtain ⟨e, he, rfl⟩ := List.mem_map.1 hx
  exact g.nonneg _ (h e he)

theorem atten_ok (g : Good c tol par κ w P A I Q) {ev : Ev} {q : V3 ℝ} {a : ℝ}
    (h : c.atten ev q = .ok a) : A a := by
  have key : ∀ (l : List (Elem S)) (x a : ℝ), (∀ e ∈ l, e ∈ c.elems) → A x →
      l.foldlM (fun ret e => do
        let a ← e.atten (e.toLocal ev) q
        Except.ok (ret * a)) x = Except.ok (ε := Err) a → A a := by
    intro l
    induction l with
    | nil => intro x a _ hx h; cases h; exact hx
    | cons e l ih =>
      intro x a hl hx h
      rw [List.foldlM_cons] at h
      obtain ⟨y, hy, h⟩ := bind_ok.1 h
      obtain ⟨b, hb, hy⟩ := bind_ok.1 hy
      cases hy
      exact ih _ _ (fun e' he' => hl e' (List.mem_cons_of_mem _ he'))
        (g.att_mul _ _ hx (g.att e (hl e List.mem_cons_self) _ _ _ hb)) h
  exact key c.elems 1 a (fun _ h => h) g.att_one h

end Good

theorem sortNew_spec {tol : ℝ} {s : Shape} (l : List Ev) {out again : List Ev}
    (h : sortNew tol s l = .ok (out, again)) : (out ++ again).Perm l := by
  induction l generalizing out again with
  | nil => cases h; exact .nil
  | cons e l ih =>
    unfold sortNew at h
    obtain ⟨loc, hl, h⟩ := bind_ok.1 h
    obtain ⟨⟨o, ag⟩, h1, h⟩ := bind_ok.1 h
    have hp := ih h1
    simp only at h
    split at h
    · cases h; exact hp.cons e
    · cases h; exact (List.perm_middle).trans (hp.cons e)

theorem sumW_perm (w : ℝ → ℝ) {l l' : List Ev} (h : l.Perm l') : sumW w l = sumW w l' :=
  (h.map _).sum_eq

theorem sumW_toGlobal (w : ℝ → ℝ) (e : Elem S) (l : List Ev) : sumW w (l.map e.toGlobal) = sumW w l := by
  simp [sumW, List.map_map, Function.comp_def, Elem.toGlobal]

namespace Good
variable {c : Comp S} {tol par κ : ℝ} {w : ℝ → ℝ} {P A : ℝ → Prop} {I : S → Prop}
  {Q : Elem S → Ev → Prop}

theorem step_ok (g : Good c tol par κ w P A I Q) {s s' : S} {ev : Ev} {out again : List Ev} (hI : I s)
    (hP : P ev.p) (h : c.step tol par s ev = .ok (s', out, again)) :
    I s' ∧ (∀ n ∈ out ++ again, P n.p) ∧ sumW w out + sumW w again ≤ κ * w ev.p := by
  have hw := g.nonneg _ hP
  have hκ := g.one_le
  unfold Comp.step at h
  split at h
  · cases h
    refine ⟨hI, by simp, ?_⟩
    simp only [sumW_nil]
    nlinarith
  · rename_i hlow
    obtain ⟨hit, hh, h⟩ := bind_ok.1 h
    split at h
    · cases h
      refine ⟨hI, by simpa using hP, ?_⟩
      simp only [sumW_nil, sumW_cons]
      nlinarith
    · rename_i e he
      obtain ⟨i, hi, hie⟩ := Option.bind_eq_some_iff.1 he
      subst hi
      obtain ⟨⟨s1, new, it⟩, h1, h⟩ := bind_ok.1 h
      have hq := g.hits ev i e hh hie
      have hc := g.calls e (List.mem_of_getElem? hie) s (e.toLocal ev) s1 new it hI hP hlow hq h1
      obtain ⟨c1, c2, c3⟩ := hc
      simp only at h
      split at h
      · cases h
        refine ⟨c1, by simp, ?_⟩
        simp only [sumW_nil]
        nlinarith
      · obtain ⟨⟨o, ag⟩, h2, h⟩ := bind_ok.1 h
        cases h
        have hp := sortNew_spec _ h2
        refine ⟨c1, ?_, ?_⟩
        · intro n hn
          obtain ⟨m, hm, rfl⟩ := List.mem_map.1 (hp.mem_iff.1 hn)
          exact c2 m hm
        · rw [← sumW_append, sumW_perm w hp, sumW_toGlobal]
          exact c3

theorem stepAll_ok (g : Good c tol par κ w P A I Q) (l : List Ev) {s s' : S} {out again : List Ev}
    (hI : I s) (hP : ∀ n ∈ l, P n.p) (h : c.stepAll tol par s l = .ok (s', out, again)) :
    I s' ∧ (∀ n ∈ out ++ again, P n.p) ∧ sumW w out + sumW w again ≤ κ * sumW w l := by
  induction l generalizing s s' out again with
  | nil => cases h; exact ⟨hI, by simp, by simp [sumW_nil]⟩
  | cons e l ih =>
    unfold Comp.stepAll at h
    obtain ⟨⟨s1, o1, a1⟩, h1, h⟩ := bind_ok.1 h
    obtain ⟨⟨s2, o2, a2⟩, h2, h⟩ := bind_ok.1 h
    cases h
    obtain ⟨x1, x2, x3⟩ := g.step_ok hI (hP e List.mem_cons_self) h1
    obtain ⟨y1, y2, y3⟩ := ih x1 (fun n hn => hP n (List.mem_cons_of_mem _ hn)) h2
    refine ⟨y1, ?_, ?_⟩
    · intro n hn
      simp only [List.mem_append] at hn x2 y2
      rcases hn with (hn | hn) | (hn | hn)
      · exact x2 n (.inl hn)
      · exact y2 n (.inl hn)
      · exact x2 n (.inr hn)
      · exact y2 n (.inr hn)
    · rw [sumW_append, sumW_append, sumW_cons]
      linarith

theorem pathLoop_ok (g : Good c tol par κ w P A I Q) (n : Nat) {l : List Ev} {s s' : S}
    {out left : List Ev} (hI : I s) (hP : ∀ n ∈ l, P n.p)
    (h : c.pathLoop tol par n s l = .ok (s', out, left)) :
    I s' ∧ (∀ n ∈ out ++ left, P n.p) ∧ sumW w out + sumW w left ≤ κ ^ n * sumW w l := by
  induction n generalizing l s s' out left with
  | zero =>
    rw [Comp.pathLoop] at h
    cases h
    exact ⟨hI, by simpa using hP, by simp [sumW_nil]⟩
  | succ n ih =>
    cases l with
    | nil =>
      rw [Comp.pathLoop] at h
      cases h
      exact ⟨hI, by simp, by simp [sumW_nil]⟩
    | cons e l =>
      rw [Comp.pathLoop] at h
      obtain ⟨⟨s1, o1, a1⟩, h1, h⟩ := bind_ok.1 h
      obtain ⟨⟨s2, o2, a2⟩, h2, h⟩ := bind_ok.1 h
      cases h
      obtain ⟨x1, x2, x3⟩ := g.stepAll_ok _ hI hP h1
      obtain ⟨y1, y2, y3⟩ := ih x1 (fun n hn => x2 n (List.mem_append_right _ hn)) h2
      have hκ := g.one_le
      have hp : 1 ≤ κ ^ n := one_le_pow₀ hκ
      have ho : 0 ≤ sumW w o1 := g.sum_nonneg fun n hn => x2 n (List.mem_append_left _ hn)
      refine ⟨y1, ?_, ?_⟩
      · intro m hm
        simp only [List.mem_append] at hm x2 y2
        rcases hm with (hm | hm) | hm
        · exact x2 m (.inl hm)
        · exact y2 m (.inl hm)
        · exact y2 m (.inr hm)
      · rw [sumW_append, pow_succ]
        have : κ ^ n * (sumW w o1 + sumW w a1) ≤ κ ^ n * (κ * sumW w (e :: l)) := by gcongr
        nlinarith

theorem leftPath_ok (g : Good c tol par κ w P A I Q) (l : List Ev) {out : List Ev}
    (hP : ∀ n ∈ l, P n.p) (h : c.leftPath tol par l = .ok out) :
    (∀ n ∈ out, P n.p) ∧ sumW w out ≤ sumW w l := by
  induction l generalizing out with
  | nil => cases h; exact ⟨by simp, le_rfl⟩
  | cons e l ih =>
    unfold Comp.leftPath at h
    obtain ⟨ev, h1, h⟩ := bind_ok.1 h
    obtain ⟨a, h2, h⟩ := bind_ok.1 h
    obtain ⟨rest, h3, h⟩ := bind_ok.1 h
    cases h
    obtain ⟨τ, -, hf⟩ := toExit_flies h1
    have hp : ev.p = e.p := hf.2.2.2.2.2
    have hl := g.less e.p a (hP e List.mem_cons_self) (g.atten_ok h2)
    obtain ⟨y1, y2⟩ := ih (fun n hn => hP n (List.mem_cons_of_mem _ hn)) h3
    refine ⟨?_, ?_⟩
    · intro n hn
      rcases List.mem_cons.1 hn with rfl | hn
      · simpa [hp] using hl.1
      · exact y1 n hn
    · rw [sumW_cons, sumW_cons]
      simp only [hp]
      linarith [hl.2]

theorem interactM_ok (g : Good c tol par κ w P A I Q) {s s' : S} {ev : Ev} {out : List Ev} (hI : I s)
    (hP : P ev.p) (h : c.interactM tol par s ev = .ok (s', out)) :
    I s' ∧ (∀ n ∈ out, P n.p) ∧ sumW w out ≤ κ ^ c.maxPath * w ev.p := by
  have fin : ∀ ev1 : Ev, ev1.p = ev.p → (do
      let (s', out, left) ← c.pathLoop tol par c.maxPath s [ev1]
      let l ← c.leftPath tol par left
      Except.ok (s', out ++ l)) = Except.ok (ε := Err) (s', out) →
      I s' ∧ (∀ n ∈ out, P n.p) ∧ sumW w out ≤ κ ^ c.maxPath * w ev.p := by
    intro ev1 hp h
    obtain ⟨⟨s1, o1, left⟩, h1, h⟩ := bind_ok.1 h
    obtain ⟨l, h2, h⟩ := bind_ok.1 h
    cases h
    obtain ⟨x1, x2, x3⟩ := g.pathLoop_ok _ hI (l := [ev1]) (by simpa [hp] using hP) h1
    obtain ⟨y1, y2⟩ := g.leftPath_ok _ (fun n hn => x2 n (List.mem_append_right _ hn)) h2
    refine ⟨x1, ?_, ?_⟩
    · intro n hn
      rcases List.mem_append.1 hn with hn | hn
      · exact x2 n (List.mem_append_left _ hn)
      · exact y1 n hn
    · rw [sumW_append]
      simp only [sumW_cons, sumW_nil, add_zero, hp] at x3
      linarith
  unfold Comp.interactM at h
  obtain ⟨loc, hl, h⟩ := bind_ok.1 h
  split at h
  · obtain ⟨ev1, h1, h⟩ := bind_ok.1 h
    obtain ⟨τ, -, hf⟩ := toIncident_flies h1
    exact fin ev1 hf.2.2.2.2.2 h
  · exact fin ev rfl h

theorem nudge_p (ev : Ev) (l : List Ev) : (nudge ev l).map (·.p) = l.map (·.p) := by
  unfold nudge
  split
  · split <;> rfl
  · rfl

theorem nudge_mem {P : ℝ → Prop} {ev : Ev} {l : List Ev} (h : ∀ n ∈ l, P n.p) :
    ∀ n ∈ nudge ev l, P n.p := by
  intro n hn
  have h1 : n.p ∈ (nudge ev l).map (·.p) := List.mem_map.2 ⟨n, hn, rfl⟩
  rw [nudge_p] at h1
  obtain ⟨m, hm, he⟩ := List.mem_map.1 h1
  rw [← he]; exact h m hm

theorem nudge_sum (w : ℝ → ℝ) (ev : Ev) (l : List Ev) : sumW w (nudge ev l) = sumW w l := by
  have : ∀ l : List Ev, sumW w l = ((l.map (·.p)).map w).sum := by
    intro l; simp [sumW, List.map_map, Function.comp_def]
  rw [this, this, nudge_p]

theorem roundAll_ok (g : Good c tol par κ w P A I Q) (l : List Ev) {s s' : S} {acc out acc' : List Ev}
    (hI : I s) (ha : ∀ n ∈ acc, P n.p) (hP : ∀ n ∈ l, P n.p)
    (h : c.roundAll tol par s acc l = .ok (s', out, acc')) :
    I s' ∧ (∀ n ∈ out ++ acc', P n.p) ∧
      sumW w out + sumW w acc' ≤ sumW w acc + κ ^ c.maxPath * sumW w l := by
  induction l generalizing s s' acc out acc' with
  | nil => cases h; exact ⟨hI, by simpa using ha, by simp [sumW_nil]⟩
  | cons e l ih =>
    have he := hP e List.mem_cons_self
    have hl := fun n hn => hP n (List.mem_cons_of_mem e hn)
    have hwe := g.nonneg _ he
    have hk : 1 ≤ κ ^ c.maxPath := one_le_pow₀ g.one_le
    have hm : 0 ≤ κ ^ c.maxPath * w e.p := by positivity
    have hm' : w e.p ≤ κ ^ c.maxPath * w e.p := by nlinarith
    rw [sumW_cons, mul_add]
    unfold Comp.roundAll at h
    split at h
    · obtain ⟨x1, x2, x3⟩ := ih hI ha hl h
      exact ⟨x1, x2, by linarith⟩
    split at h
    · obtain ⟨x1, x2, x3⟩ := ih hI ha hl h
      exact ⟨x1, x2, by linarith⟩
    obtain ⟨ex, h1, h⟩ := bind_ok.1 h
    split at h
    · obtain ⟨⟨s1, o1, a1⟩, h2, h⟩ := bind_ok.1 h
      cases h
      obtain ⟨x1, x2, x3⟩ := ih hI ha hl h2
      refine ⟨x1, ?_, ?_⟩
      · intro n hn
        rcases List.mem_cons.1 hn with rfl | hn
        · exact he
        · exact x2 n hn
      · rw [sumW_cons]; linarith
    · obtain ⟨⟨s1, new⟩, h2, h⟩ := bind_ok.1 h
      obtain ⟨y1, y2, y3⟩ := g.interactM_ok hI he h2
      obtain ⟨x1, x2, x3⟩ := ih y1 (nudge_mem (by
        intro n hn
        rcases List.mem_append.1 hn with hn | hn
        · exact ha n hn
        · exact y2 n hn)) hl h
      refine ⟨x1, x2, ?_⟩
      rw [nudge_sum, sumW_append] at x3
      linarith

theorem amongLoop_ok (g : Good c tol par κ w P A I Q) (n : Nat) {l : List Ev} {s s' : S}
    {out left : List Ev} (hI : I s) (hP : ∀ n ∈ l, P n.p)
    (h : c.amongLoop tol par n s l = .ok (s', out, left)) :
    I s' ∧ (∀ n ∈ out ++ left, P n.p) ∧
      sumW w out + sumW w left ≤ κ ^ (n * c.maxPath) * sumW w l := by
  induction n generalizing l s s' out left with
  | zero =>
    rw [Comp.amongLoop] at h
    cases h
    exact ⟨hI, by simpa using hP, by simp [sumW_nil]⟩
  | succ n ih =>
    cases l with
    | nil =>
      rw [Comp.amongLoop] at h
      cases h
      exact ⟨hI, by simp, by simp [sumW_nil]⟩
    | cons e l =>
      rw [Comp.amongLoop] at h
      obtain ⟨⟨s1, o1, a1⟩, h1, h⟩ := bind_ok.1 h
      obtain ⟨⟨s2, o2, a2⟩, h2, h⟩ := bind_ok.1 h
      cases h
      obtain ⟨x1, x2, x3⟩ := g.roundAll_ok _ hI (by simp) hP h1
      rw [sumW_nil, zero_add] at x3
      obtain ⟨y1, y2, y3⟩ := ih x1 (fun n hn => x2 n (List.mem_append_right _ hn)) h2
      have hp : 1 ≤ κ ^ (n * c.maxPath) := one_le_pow₀ g.one_le
      have ho : 0 ≤ sumW w o1 := g.sum_nonneg fun n hn => x2 n (List.mem_append_left _ hn)
      refine ⟨y1, ?_, ?_⟩
      · intro m hm
        simp only [List.mem_append] at hm x2 y2
        rcases hm with (hm | hm) | hm
        · exact x2 m (.inl hm)
        · exact y2 m (.inl hm)
        · exact y2 m (.inr hm)
      · rw [sumW_append, Nat.succ_mul, pow_add]
        have : κ ^ (n * c.maxPath) * (sumW w o1 + sumW w a1) ≤
            κ ^ (n * c.maxPath) * (κ ^ c.maxPath * sumW w (e :: l)) := by gcongr
        nlinarith

theorem propagateOut_p {tol par : ℝ} {s : Shape} {ev ev' : Ev} (h : propagateOut tol par s ev = .ok ev') :
    ev'.p = ev.p := by
  unfold propagateOut at h
  obtain ⟨ts, -, h⟩ := bind_ok.1 h
  split at h <;> cases h <;> rfl

theorem leftOut_ok (g : Good c tol par κ w P A I Q) (l : List Ev) {out : List Ev}
    (hP : ∀ n ∈ l, P n.p) (h : c.leftOut tol par l = .ok out) :
    (∀ n ∈ out, P n.p) ∧ sumW w out ≤ sumW w l := by
  induction l generalizing out with
  | nil => cases h; exact ⟨by simp, le_rfl⟩
  | cons e l ih =>
    unfold Comp.leftOut at h
    obtain ⟨ev, h1, h⟩ := bind_ok.1 h
    obtain ⟨a, h2, h⟩ := bind_ok.1 h
    obtain ⟨rest, h3, h⟩ := bind_ok.1 h
    cases h
    have hp : ev.p = e.p := propagateOut_p h1
    have hl := g.less e.p a (hP e List.mem_cons_self) (g.atten_ok h2)
    obtain ⟨y1, y2⟩ := ih (fun n hn => hP n (List.mem_cons_of_mem _ hn)) h3
    refine ⟨?_, ?_⟩
    · intro n hn
      rcases List.mem_cons.1 hn with rfl | hn
      · simpa [hp] using hl.1
      · exact y1 n hn
    · rw [sumW_cons, sumW_cons]
      simp only [hp]
      linarith [hl.2]

theorem scatterM_ok (g : Good c tol par κ w P A I Q) {s s' : S} {ev : Ev} {out : List Ev} (hI : I s)
    (hP : P ev.p) (h : c.scatterM tol par s ev = .ok (s', out)) :
    I s' ∧ (∀ n ∈ out, P n.p) ∧ sumW w out ≤ κ ^ (c.maxAmong * c.maxPath) * w ev.p := by
  unfold Comp.scatterM at h
  obtain ⟨⟨s1, o1, left⟩, h1, h⟩ := bind_ok.1 h
  obtain ⟨l, h2, h⟩ := bind_ok.1 h
  cases h
  obtain ⟨x1, x2, x3⟩ := g.amongLoop_ok _ hI (l := [ev]) (by simpa using hP) h1
  obtain ⟨y1, y2⟩ := g.leftOut_ok _ (fun n hn => x2 n (List.mem_append_right _ hn)) h2
  refine ⟨x1, ?_, ?_⟩
  · intro n hn
    rcases List.mem_append.1 hn with hn | hn
    · exact x2 n (List.mem_append_left _ hn)
    · exact y1 n hn
  · rw [sumW_append]
    simp only [sumW_cons, sumW_nil, add_zero] at x3
    linarith

end Good

/-! ### frames -/

theorem toGlobal_toLocal {e : Elem S} (h : Frames.IsOrtho e.rot) (ev : Ev) : e.toGlobal (e.toLocal ev) = ev := by
  have h1 : ∀ v, e.rot.mulVec (e.rot.transpose.mulVec v) = v := fun v => by
    rw [Frames.transpose_mulVec]; exact h.mulVec_labVec v
  unfold Elem.toGlobal Elem.toLocal
  simp only [h1]
  congr 1
  apply V3.ext <;> simp

theorem toLocal_toGlobal {e : Elem S} (h : Frames.IsOrtho e.rot) (ev : Ev) : e.toLocal (e.toGlobal ev) = ev := by
  have h1 : ∀ v, e.rot.transpose.mulVec (e.rot.mulVec v) = v := fun v => by
    rw [Frames.transpose_mulVec]; exact h.labVec_mulVec v
  unfold Elem.toGlobal Elem.toLocal
  have h2 : e.rot.mulVec ev.r + e.pos - e.pos = e.rot.mulVec ev.r := by apply V3.ext <;> simp
  simp only [h2, h1]

theorem toLocal_at (e : Elem S) (ev : Ev) (t : ℝ) :
    at' (e.toLocal ev).r (e.toLocal ev).v t =
      e.rot.transpose.mulVec (at' ev.r ev.v t - e.pos) := by
  apply V3.ext <;> simp [Elem.toLocal, at', M3.mulVec] <;> ring

theorem hit_traverses {c : Comp S} {tol par : ℝ} (h0 : 0 < tol) (hw : ∀ e ∈ c.elems, WF e.shape) {ev : Ev}
    {i : Nat} {e : Elem S} (h : find1stHit tol par c.shapes ev.r ev.v = .ok (some i))
    (he : c.elems[i]? = some e) : Traverses e.shape (e.toLocal ev) := by
  obtain ⟨s, hs, t, ht, hl⟩ := hit_inside h
  unfold Comp.shapes at hs
  rw [List.getElem?_map, he] at hs
  cases hs
  refine ⟨t, ht, (locate_sound h0 _ (hw e (List.mem_of_getElem? he)) _).1 ?_⟩
  rw [toLocal_at]
  exact hl

/-! ### the single mode -/

theorem atten_range {c : Comp S} (hc : ∀ e ∈ c.elems, Lossy e) {ev : Ev} {q : V3 ℝ} {a : ℝ}
    (h : c.atten ev q = .ok a) : 0 ≤ a ∧ a ≤ 1 := by
  have key : ∀ (l : List (Elem S)) (x a : ℝ), (∀ e ∈ l, e ∈ c.elems) → 0 ≤ x ∧ x ≤ 1 →
      l.foldlM (fun ret e => do
        let a ← e.atten (e.toLocal ev) q
        Except.ok (ret * a)) x = Except.ok (ε := Err) a → 0 ≤ a ∧ a ≤ 1 := by
    intro l
    induction l with
    | nil => intro x a _ hx h; cases h; exact hx
    | cons e l ih =>
      intro x a hl hx h
      rw [List.foldlM_cons] at h
      obtain ⟨y, hy, h⟩ := bind_ok.1 h
      obtain ⟨b, hb, hy⟩ := bind_ok.1 hy
      cases hy
      obtain ⟨b0, b1⟩ := (hc e (hl e List.mem_cons_self)).atten _ _ _ hb
      exact ih _ _ (fun e' he' => hl e' (List.mem_cons_of_mem _ he'))
        ⟨mul_nonneg hx.1 b0, by nlinarith [hx.1, hx.2]⟩ h
  exact key c.elems 1 a (fun _ h => h) (by norm_num) h

theorem mul_range {p a q : ℝ} (hp : 0 ≤ p ∧ p ≤ q) (ha : 0 ≤ a ∧ a ≤ 1) : 0 ≤ p * a ∧ p * a ≤ q :=
  ⟨mul_nonneg hp.1 ha.1, by nlinarith [hp.1, hp.2, ha.1, ha.2]⟩

theorem attenuateOut_ok {c : Comp S} {tol par : ℝ} (hc : ∀ e ∈ c.elems, Lossy e) {save ev : Ev} {q : ℝ}
    (hp : 0 ≤ save.p ∧ save.p ≤ q) (h : c.attenuateOut tol par save = .ok ev) : 0 ≤ ev.p ∧ ev.p ≤ q := by
  unfold Comp.attenuateOut at h
  obtain ⟨loc, -, h⟩ := bind_ok.1 h
  split at h
  · obtain ⟨e1, h1, h⟩ := bind_ok.1 h
    obtain ⟨a, h2, h⟩ := bind_ok.1 h
    cases h
    obtain ⟨τ, -, hf⟩ := toExit_flies h1
    have : e1.p = save.p := hf.2.2.2.2.2
    simp only [this]
    exact mul_range hp (atten_range hc h2)
  · obtain ⟨a, h2, h⟩ := bind_ok.1 h
    cases h
    exact mul_range hp (atten_range hc h2)

theorem finish_ok {c : Comp S} {tol par : ℝ} (hc : ∀ e ∈ c.elems, Lossy e) {save ev : Ev} {q : ℝ}
    (hp : 0 ≤ save.p ∧ save.p ≤ q) (h : c.finish tol par save = .ok ev) : 0 ≤ ev.p ∧ ev.p ≤ q := by
  unfold Comp.finish at h
  obtain ⟨ts, -, h⟩ := bind_ok.1 h
  split at h
  · cases h; exact hp
  · obtain ⟨e1, h1, h⟩ := bind_ok.1 h
    obtain ⟨a, h2, h⟩ := bind_ok.1 h
    cases h
    have : e1.p = save.p := Good.propagateOut_p h1
    simp only [this]
    exact mul_range hp (atten_range hc h2)

theorem interact1_ok {c : Comp S} {tol par : ℝ} (h0 : 0 < tol) (hw : ∀ e ∈ c.elems, WF e.shape)
    (hc : ∀ e ∈ c.elems, Lossy e) {I : S → Prop} (hI : ∀ e ∈ c.elems, KeptByCalls1 I e) (fuel : Nat)
    {s s' : S} {ev ev' : Ev} {i : IType} {q : ℝ} (hs : I s) (hp : 0 ≤ ev.p ∧ ev.p ≤ q)
    (h : c.interact1 tol par fuel s ev = .ok (s', ev', i)) :
    I s' ∧ (i = .absorption → ev'.p = -1) ∧ (i ≠ .absorption → 0 ≤ ev'.p ∧ ev'.p ≤ q) := by
  induction fuel generalizing s ev with
  | zero => cases h
  | succ n ih =>
    unfold Comp.interact1 at h
    obtain ⟨hit, hh, h⟩ := bind_ok.1 h
    split at h
    · obtain ⟨e1, h1, h⟩ := bind_ok.1 h
      cases h
      obtain ⟨τ, -, hf⟩ := toExit_flies h1
      have : ev'.p = ev.p := hf.2.2.2.2.2
      exact ⟨hs, by simp, fun _ => by rw [this]; exact hp⟩
    · rename_i e he
      obtain ⟨i, hi, hie⟩ := Option.bind_eq_some_iff.1 he
      subst hi
      have hmem := List.mem_of_getElem? hie
      obtain ⟨⟨s1, loc, it⟩, h1, h⟩ := bind_ok.1 h
      have hs1 := hI e hmem s (e.toLocal ev) s1 loc it hs (hit_traverses h0 hw hh hie) h1
      have hl := (hc e hmem).interact1 s (e.toLocal ev) s1 loc it hp.1 h1
      simp only at h
      split at h
      · cases h; exact ⟨hs1, by simp, by simp⟩
      · have hl' := hl (by simp)
        have hq : 0 ≤ (e.toGlobal loc).p ∧ (e.toGlobal loc).p ≤ q :=
          ⟨hl'.1, hl'.2.trans hp.2⟩
        obtain ⟨w, -, h⟩ := bind_ok.1 h
        split at h
        · cases h; exact ⟨hs1, by simp, fun _ => hq⟩
        · exact ih hs1 hq h
      · have hl' := hl (by simp)
        have hq : 0 ≤ (e.toGlobal loc).p ∧ (e.toGlobal loc).p ≤ q :=
          ⟨hl'.1, hl'.2.trans hp.2⟩
        obtain ⟨e1, h2, h⟩ := bind_ok.1 h
        cases h
        exact ⟨hs1, by simp, fun _ => attenuateOut_ok hc hq h2⟩

theorem scatter_ok {c : Comp S} {tol par : ℝ} (h0 : 0 < tol) (hw : ∀ e ∈ c.elems, WF e.shape)
    (hc : ∀ e ∈ c.elems, Lossy e) {I : S → Prop} (hI : ∀ e ∈ c.elems, KeptByCalls1 I e) (fuel : Nat)
    {s s' : S} {ev ev' : Ev} {q : ℝ} (hs : I s) (hp : 0 ≤ ev.p ∧ ev.p ≤ q)
    (h : c.scatter tol par fuel s ev = .ok (s', ev')) :
    I s' ∧ (ev'.p = -1 ∨ (0 ≤ ev'.p ∧ ev'.p ≤ q)) := by
  induction fuel generalizing s ev with
  | zero => cases h
  | succ n ih =>
    unfold Comp.scatter at h
    split at h
    · cases h; exact ⟨hs, .inl rfl⟩
    obtain ⟨ex, -, h⟩ := bind_ok.1 h
    split at h
    · cases h; exact ⟨hs, .inr hp⟩
    obtain ⟨exu, -, h⟩ := bind_ok.1 h
    split at h
    · obtain ⟨e1, h1, h⟩ := bind_ok.1 h
      cases h
      obtain ⟨τ, -, hf⟩ := toExit_flies h1
      have : ev'.p = ev.p := hf.2.2.2.2.2
      exact ⟨hs, .inr (by rw [this]; exact hp)⟩
    obtain ⟨⟨s1, ev1, it⟩, h1, h⟩ := bind_ok.1 h
    obtain ⟨x1, x2, x3⟩ := interact1_ok h0 hw hc hI _ hs hp h1
    simp only at h
    split at h
    · cases h; exact ⟨x1, .inl (x2 rfl)⟩
    · obtain ⟨e2, h2, h⟩ := bind_ok.1 h
      obtain ⟨τ, -, hf⟩ := toIncident_flies h2
      have : e2.p = ev1.p := hf.2.2.2.2.2
      exact ih x1 (by rw [this]; exact x3 (by simp)) h
    · obtain ⟨e2, h2, h⟩ := bind_ok.1 h
      cases h
      exact ⟨x1, .inr (finish_ok hc (x3 (by simp)) h2)⟩

/-! ### outgoing neutrons -/

/-- neutrons that were found exiting, or left-over neutrons propagated out of the shape -/
def Outgoing (c : Comp S) (tol par : ℝ) (ev : Ev) : Prop :=
  isExiting tol par c.shape ev = .ok true ∨ ∃ save, propagateOut tol par c.shape save = .ok { ev with p := save.p }

theorem roundAll_out {c : Comp S} {tol par : ℝ} (l : List Ev) {s s' : S} {acc out acc' : List Ev}
    (h : c.roundAll tol par s acc l = .ok (s', out, acc')) :
    ∀ n ∈ out, isExiting tol par c.shape n = .ok true := by
  induction l generalizing s s' acc out acc' with
  | nil => cases h; simp
  | cons e l ih =>
    unfold Comp.roundAll at h
    split at h
    · exact ih h
    split at h
    · exact ih h
    obtain ⟨ex, h1, h⟩ := bind_ok.1 h
    split at h
    · rename_i hex
      obtain ⟨⟨s1, o1, a1⟩, h2, h⟩ := bind_ok.1 h
      cases h
      intro n hn
      rcases List.mem_cons.1 hn with rfl | hn
      · rw [h1, hex]
      · exact ih h2 n hn
    · obtain ⟨⟨s1, new⟩, h2, h⟩ := bind_ok.1 h
      exact ih h

theorem amongLoop_out {c : Comp S} {tol par : ℝ} (n : Nat) {l : List Ev} {s s' : S} {out left : List Ev}
    (h : c.amongLoop tol par n s l = .ok (s', out, left)) :
    ∀ n ∈ out, isExiting tol par c.shape n = .ok true := by
  induction n generalizing l s s' out left with
  | zero => rw [Comp.amongLoop] at h; cases h; simp
  | succ n ih =>
    cases l with
    | nil => rw [Comp.amongLoop] at h; cases h; simp
    | cons e l =>
      rw [Comp.amongLoop] at h
      obtain ⟨⟨s1, o1, a1⟩, h1, h⟩ := bind_ok.1 h
      obtain ⟨⟨s2, o2, a2⟩, h2, h⟩ := bind_ok.1 h
      cases h
      intro m hm
      rcases List.mem_append.1 hm with hm | hm
      · exact roundAll_out _ h1 m hm
      · exact ih h2 m hm

theorem leftOut_out {c : Comp S} {tol par : ℝ} (l : List Ev) {out : List Ev}
    (h : c.leftOut tol par l = .ok out) :
    ∀ n ∈ out, ∃ save, propagateOut tol par c.shape save = .ok { n with p := save.p } := by
  induction l generalizing out with
  | nil => cases h; simp
  | cons e l ih =>
    unfold Comp.leftOut at h
    obtain ⟨ev, h1, h⟩ := bind_ok.1 h
    obtain ⟨a, h2, h⟩ := bind_ok.1 h
    obtain ⟨rest, h3, h⟩ := bind_ok.1 h
    cases h
    intro n hn
    rcases List.mem_cons.1 hn with rfl | hn
    · refine ⟨e, ?_⟩
      rw [h1, ← Good.propagateOut_p h1]
    · exact ih h3 n hn

/-! ### the first constituent on the path -/

theorem first_called {c : Comp S} {tol par κ : ℝ} {I : S → Prop}
    (g : Good c tol par κ (fun _ => 0) (fun _ => True) (fun _ => True) I (fun _ _ => True))
    (ha : 1 ≤ c.maxAmong) (hp : 1 ≤ c.maxPath) {s s' : S} {ev : Ev} {out : List Ev}
    (hlow : ¬ c.low ev) (hm : isMoving ev) (hin : locate tol c.shape ev.r = .ok .inside) {i : Nat} {e : Elem S}
    (hh : find1stHit tol par c.shapes ev.r ev.v = .ok (some i)) (he : c.elems[i]? = some e)
    (hI : ∀ s1 new it, e.interactM s (e.toLocal ev) = .ok (s1, new, it) → I s1)
    (h : c.scatterM tol par s ev = .ok (s', out)) : I s' := by
  obtain ⟨n, hn⟩ : ∃ n, c.maxAmong = n + 1 := ⟨c.maxAmong - 1, by omega⟩
  obtain ⟨m, hm'⟩ : ∃ m, c.maxPath = m + 1 := ⟨c.maxPath - 1, by omega⟩
  unfold Comp.scatterM at h
  obtain ⟨⟨s1, o1, left⟩, h1, h⟩ := bind_ok.1 h
  obtain ⟨l, h2, h⟩ := bind_ok.1 h
  cases h
  rw [hn, Comp.amongLoop] at h1
  obtain ⟨⟨s2, o2, ag⟩, h3, h1⟩ := bind_ok.1 h1
  obtain ⟨⟨s3, o3, left'⟩, h4, h1⟩ := bind_ok.1 h1
  cases h1
  refine (g.amongLoop_ok n ?_ (by simp) h4).1
  unfold Comp.roundAll at h3
  rw [if_neg hlow, if_neg (not_not.2 hm)] at h3
  obtain ⟨ex, h5, h3⟩ := bind_ok.1 h3
  have hex : ex = false := by
    unfold isExiting at h5
    rw [hin] at h5
    simpa [bind, Except.bind, eq_comm] using h5
  subst hex
  simp only [Bool.false_eq_true, if_false] at h3
  obtain ⟨⟨s4, new⟩, h6, h3⟩ := bind_ok.1 h3
  refine (g.roundAll_ok [] ?_ (by simp) (by simp) h3).1
  unfold Comp.interactM at h6
  obtain ⟨loc, h7, h6⟩ := bind_ok.1 h6
  rw [hin] at h7
  cases h7
  rw [if_neg (by simp)] at h6
  obtain ⟨⟨s5, o5, left5⟩, h8, h6⟩ := bind_ok.1 h6
  obtain ⟨l5, h9, h6⟩ := bind_ok.1 h6
  cases h6
  rw [hm', Comp.pathLoop] at h8
  obtain ⟨⟨s6, o6, ag6⟩, h10, h8⟩ := bind_ok.1 h8
  obtain ⟨⟨s7, o7, left7⟩, h11, h8⟩ := bind_ok.1 h8
  cases h8
  refine (g.pathLoop_ok m ?_ (by simp) h11).1
  unfold Comp.stepAll at h10
  obtain ⟨⟨s8, o8, ag8⟩, h12, h10⟩ := bind_ok.1 h10
  obtain ⟨⟨s9, o9, ag9⟩, h13, h10⟩ := bind_ok.1 h10
  cases h10
  cases h13
  unfold Comp.step at h12
  rw [if_neg hlow, hh] at h12
  simp only [bind, Except.bind, Option.bind_some, he] at h12
  cases hc : e.interactM s (e.toLocal ev) with
  | error x => rw [hc] at h12; cases h12
  | ok x =>
    obtain ⟨sx, nx, ix⟩ := x
    have := hI _ _ _ hc
    rw [hc] at h12
    simp only at h12
    split at h12
    · cases h12; exact this
    · split at h12
      · cases h12
      · cases h12; exact this

/-! ### the threshold -/

section threshold
variable {c : Comp S} {g : ℝ} (hl : ∀ ev, c.low ev ↔ ({ c with minP := g } : Comp S).low ev)
include hl

theorem step_minP (tol par : ℝ) (s : S) (ev : Ev) :
    ({ c with minP := g } : Comp S).step tol par s ev = c.step tol par s ev := by
  unfold Comp.step
  by_cases h : c.low ev
  · rw [if_pos h, if_pos ((hl ev).1 h)]
  · rw [if_neg h, if_neg (fun h' => h ((hl ev).2 h'))]
    rfl

theorem stepAll_minP (tol par : ℝ) (s : S) (l : List Ev) :
    ({ c with minP := g } : Comp S).stepAll tol par s l = c.stepAll tol par s l := by
  induction l generalizing s with
  | nil => rfl
  | cons e l ih => unfold Comp.stepAll; rw [step_minP hl]; simp only [ih]

theorem pathLoop_minP (tol par : ℝ) (n : Nat) (s : S) (l : List Ev) :
    ({ c with minP := g } : Comp S).pathLoop tol par n s l = c.pathLoop tol par n s l := by
  induction n generalizing s l with
  | zero => simp only [Comp.pathLoop]
  | succ n ih =>
    cases l with
    | nil => simp only [Comp.pathLoop]
    | cons e l => simp only [Comp.pathLoop, stepAll_minP hl, ih]

omit hl in
theorem leftPath_minP (tol par : ℝ) (l : List Ev) :
    ({ c with minP := g } : Comp S).leftPath tol par l = c.leftPath tol par l := by
  induction l with
  | nil => rfl
  | cons e l ih => simp only [Comp.leftPath, ih, Comp.atten]

omit hl in
theorem leftOut_minP (tol par : ℝ) (l : List Ev) :
    ({ c with minP := g } : Comp S).leftOut tol par l = c.leftOut tol par l := by
  induction l with
  | nil => rfl
  | cons e l ih => simp only [Comp.leftOut, ih, Comp.atten]

theorem interactM_minP (tol par : ℝ) (s : S) (ev : Ev) :
    ({ c with minP := g } : Comp S).interactM tol par s ev = c.interactM tol par s ev := by
  simp only [Comp.interactM, pathLoop_minP hl, leftPath_minP]

theorem roundAll_minP (tol par : ℝ) (s : S) (acc l : List Ev) :
    ({ c with minP := g } : Comp S).roundAll tol par s acc l = c.roundAll tol par s acc l := by
  induction l generalizing s acc with
  | nil => rfl
  | cons e l ih =>
    unfold Comp.roundAll
    by_cases h : c.low e
    · rw [if_pos h, if_pos ((hl e).1 h), ih]
    · rw [if_neg h, if_neg (fun h' => h ((hl e).2 h'))]
      simp only [ih, interactM_minP hl]

theorem amongLoop_minP (tol par : ℝ) (n : Nat) (s : S) (l : List Ev) :
    ({ c with minP := g } : Comp S).amongLoop tol par n s l = c.amongLoop tol par n s l := by
  induction n generalizing s l with
  | zero => simp only [Comp.amongLoop]
  | succ n ih =>
    cases l with
    | nil => simp only [Comp.amongLoop]
    | cons e l => simp only [Comp.amongLoop, roundAll_minP hl, ih]

theorem scatterM_minP (tol par : ℝ) (s : S) (ev : Ev) :
    ({ c with minP := g } : Comp S).scatterM tol par s ev = c.scatterM tol par s ev := by
  simp only [Comp.scatterM, amongLoop_minP hl, leftOut_minP]

end threshold

/-! ### attenuation of placed shapes -/

theorem length_mulVec {m : M3 ℝ} (h : Frames.IsOrtho m) (v : V3 ℝ) : length (m.transpose.mulVec v) = length v := by
  unfold length
  rw [h.cols.length2_mulVec]

theorem pathLoop_placed (e : Elem S) (tol v tofmax : ℝ) (ev : Ev) (ts : List ℝ) (prev len : ℝ) :
    Flight.pathLoop tol (.translation (.rotation e.shape e.rot) e.pos) ev.r ev.v v tofmax prev len ts =
      Flight.pathLoop tol e.shape (e.toLocal ev).r (e.toLocal ev).v v tofmax prev len ts := by
  induction ts generalizing prev len with
  | nil => rfl
  | cons t ts ih =>
    simp only [Flight.pathLoop]
    have : ∀ x : ℝ, locate tol (.translation (.rotation e.shape e.rot) e.pos) (ev.r + x • ev.v) =
        locate tol e.shape ((e.toLocal ev).r + x • (e.toLocal ev).v) := by
      intro x
      have := toLocal_at e ev x
      unfold at' at this
      rw [this]; rfl
    rw [this]
    simp only [ih]

/-- attenuation in the shape as placed is attenuation in the shape itself, for the neutron and the
end point in the frame of the constituent -/
theorem attenuation_placed (e : Elem S) (h : Frames.IsOrtho e.rot) (tol par mu sigma : ℝ) (ev : Ev) (endp : V3 ℝ) :
    attenuation tol par (.translation (.rotation e.shape e.rot) e.pos) mu sigma ev endp =
      attenuation tol par e.shape mu sigma (e.toLocal ev) (e.rot.transpose.mulVec (endp - e.pos)) := by
  have h1 : length (e.toLocal ev).v = length ev.v := length_mulVec h ev.v
  have h2 : length (e.rot.transpose.mulVec (endp - e.pos) - (e.toLocal ev).r) = length (endp - ev.r) := by
    rw [← length_mulVec h (endp - ev.r)]
    congr 1
    unfold Elem.toLocal
    apply V3.ext <;> simp [M3.mulVec] <;> ring
  unfold attenuation pathLength
  rw [h1, h2]
  have h3 : forwardIntersect tol par (.translation (.rotation e.shape e.rot) e.pos) ev.r ev.v =
      forwardIntersect tol par e.shape (e.toLocal ev).r (e.toLocal ev).v := rfl
  rw [h3]
  simp only [pathLoop_placed]

/-! ### overlap -/

theorem anyNotOutside_true {tol : ℝ} {s2 : Shape} {p v : V3 ℝ} (ts : List ℝ)
    (h : anyNotOutside tol s2 p v ts = .ok true) :
    ∃ t ∈ ts, ∃ l, l ≠ .outside ∧ locate tol s2 (at' p v t) = .ok l := by
  induction ts with
  | nil => cases h
  | cons t ts ih =>
    unfold anyNotOutside at h
    obtain ⟨l, hl, h⟩ := bind_ok.1 h
    split at h
    · rename_i hne
      exact ⟨t, by simp, l, hne, hl⟩
    · obtain ⟨t', ht', h'⟩ := ih h
      exact ⟨t', List.mem_cons_of_mem _ ht', h'⟩

theorem anyNotOutside_false {tol : ℝ} {s2 : Shape} {p v : V3 ℝ} (ts : List ℝ)
    (h : ∀ t ∈ ts, locate tol s2 (at' p v t) = .ok .outside) : anyNotOutside tol s2 p v ts = .ok false := by
  induction ts with
  | nil => rfl
  | cons t ts ih =>
    unfold anyNotOutside
    have := h t (by simp)
    unfold at' at this
    rw [this]
    simp only [bind, Except.bind]
    rw [if_neg (by simp)]
    exact ih fun t' ht' => h t' (List.mem_cons_of_mem _ ht')

theorem hasOverlap_true {tol par : ℝ} {s1 s2 : Shape} {b : BB} (us : List (Fin 5 → ℝ))
    (h : hasOverlap tol par s1 s2 b us = .ok true) :
    ∃ p v ts, intersect tol par s1 p v = .ok ts ∧ ∃ t ∈ ts, ∃ l, l ≠ .outside ∧ locate tol s2 (at' p v t) = .ok l := by
  induction us with
  | nil => cases h
  | cons u us ih =>
    unfold hasOverlap at h
    obtain ⟨ds, hd, h⟩ := bind_ok.1 h
    obtain ⟨r, hr, h⟩ := bind_ok.1 h
    split at h
    · rename_i hrt
      subst hrt
      exact ⟨_, _, ds, hd, anyNotOutside_true ds hr⟩
    · exact ih h

theorem hasOverlap_false {tol par : ℝ} {s1 s2 : Shape} {b : BB} (us : List (Fin 5 → ℝ))
    (ht : ∀ p v, ∃ ts, intersect tol par s1 p v = .ok ts ∧ ∀ t ∈ ts, locate tol s2 (at' p v t) = .ok .outside) :
    hasOverlap tol par s1 s2 b us = .ok false := by
  induction us with
  | nil => rfl
  | cons u us ih =>
    obtain ⟨ts, h1, h2⟩ := ht (ray b u).1 (ray b u).2
    unfold hasOverlap
    rw [h1]
    simp only [bind, Except.bind]
    rw [anyNotOutside_false ts h2]
    simpa using ih

theorem overlapInner_error {tol par : ℝ} {us : Nat → Nat → List (Fin 5 → ℝ)} {i : Nat} {s : Shape} {b : BB}
    (hok : ∀ s2 : Shape, WF s2 → ∀ us, ∃ r, hasOverlap tol par s s2 b us = .ok r) (l : List (Elem S))
    (hw : ∀ e ∈ l, WF e.shape) (j : Nat) (h : overlapInner tol par us i s b j l ≠ .ok ()) :
    ∃ k e, l[k]? = some e ∧ hasOverlap tol par s e.shape b (us i (j + k)) = .ok true := by
  induction l generalizing j with
  | nil => exact absurd rfl h
  | cons e l ih =>
    obtain ⟨r, hr⟩ := hok e.shape (hw e (by simp)) (us i j)
    unfold overlapInner at h
    rw [hr] at h
    simp only [bind, Except.bind] at h
    cases r with
    | true => exact ⟨0, e, rfl, by simpa using hr⟩
    | false =>
      simp only [Bool.false_eq_true, if_false] at h
      obtain ⟨k, e', he, hk⟩ := ih (fun e he => hw e (List.mem_cons_of_mem _ he)) (j + 1) h
      exact ⟨k + 1, e', by simpa using he, by rw [show j + (k + 1) = j + 1 + k by ring]; exact hk⟩

theorem overlapInner_ok {tol par : ℝ} {us : Nat → Nat → List (Fin 5 → ℝ)} {i : Nat} {s : Shape} {b : BB}
    (l : List (Elem S)) (j : Nat) (h : overlapInner tol par us i s b j l = .ok ()) :
    ∀ k e, l[k]? = some e → hasOverlap tol par s e.shape b (us i (j + k)) = .ok false := by
  induction l generalizing j with
  | nil => simp
  | cons e l ih =>
    unfold overlapInner at h
    obtain ⟨r, hr, h⟩ := bind_ok.1 h
    split at h
    · cases h
    · rename_i hne
      intro k e' he
      cases k with
      | zero =>
        simp only [List.getElem?_cons_zero, Option.some.injEq] at he
        subst he
        simp only [add_zero, hr]
        simpa using hne
      | succ k =>
        have := ih (j + 1) h k e' (by simpa using he)
        rw [show j + (k + 1) = j + 1 + k by ring]; exact this

theorem hasOverlap_total {tol par : ℝ} {s1 s2 : Shape} (h1 : ∀ p v, ∃ ts, intersect tol par s1 p v = .ok ts)
    (h2 : ∀ p, ∃ l, locate tol s2 p = .ok l) (b : BB) (us : List (Fin 5 → ℝ)) :
    ∃ r, hasOverlap tol par s1 s2 b us = .ok r := by
  have key : ∀ (p v : V3 ℝ) (ts : List ℝ), ∃ r, anyNotOutside tol s2 p v ts = .ok r := by
    intro p v ts
    induction ts with
    | nil => exact ⟨_, rfl⟩
    | cons t ts ih =>
      obtain ⟨l, hl⟩ := h2 (p + t • v)
      unfold anyNotOutside
      rw [hl]
      simp only [bind, Except.bind]
      split
      · exact ⟨_, rfl⟩
      · exact ih
  induction us with
  | nil => exact ⟨_, rfl⟩
  | cons u us ih =>
    obtain ⟨ts, hts⟩ := h1 (ray b u).1 (ray b u).2
    obtain ⟨r, hr⟩ := key (ray b u).1 (ray b u).2 ts
    unfold hasOverlap
    rw [hts]
    simp only [bind, Except.bind, hr]
    split
    · exact ⟨_, rfl⟩
    · exact ih

theorem anyNotOutside_of {tol : ℝ} {s2 : Shape} (h2 : ∀ p, ∃ l, locate tol s2 p = .ok l) {p v : V3 ℝ} (ts : List ℝ)
    {t : ℝ} (ht : t ∈ ts) (hl : locate tol s2 (at' p v t) ≠ .ok .outside) : anyNotOutside tol s2 p v ts = .ok true := by
  induction ts with
  | nil => simp at ht
  | cons t' ts ih =>
    obtain ⟨l, hl'⟩ := h2 (p + t' • v)
    unfold anyNotOutside
    rw [hl']
    simp only [bind, Except.bind]
    split
    · rfl
    · rename_i hne
      rcases List.mem_cons.1 ht with rfl | ht
      · exfalso
        apply hl
        unfold at'
        rw [hl', not_not.1 hne]
      · exact ih ht

theorem hasOverlap_of {tol par : ℝ} {s1 s2 : Shape} (h1 : ∀ p v, ∃ ts, intersect tol par s1 p v = .ok ts)
    (h2 : ∀ p, ∃ l, locate tol s2 p = .ok l) (b : BB) (us : List (Fin 5 → ℝ)) {u : Fin 5 → ℝ} (hu : u ∈ us)
    {ts : List ℝ} {t : ℝ} (hts : intersect tol par s1 (ray b u).1 (ray b u).2 = .ok ts) (ht : t ∈ ts)
    (hl : locate tol s2 (at' (ray b u).1 (ray b u).2 t) ≠ .ok .outside) :
    hasOverlap tol par s1 s2 b us = .ok true := by
  induction us with
  | nil => simp at hu
  | cons u' us ih =>
    by_cases he : u = u'
    · subst he
      unfold hasOverlap
      rw [hts]
      simp only [bind, Except.bind]
      rw [anyNotOutside_of h2 ts ht hl]
      rfl
    · obtain ⟨ts', hts'⟩ := h1 (ray b u').1 (ray b u').2
      have hu' : u ∈ us := by
        rcases List.mem_cons.1 hu with h | h
        · exact absurd h he
        · exact h
      unfold hasOverlap
      rw [hts']
      simp only [bind, Except.bind]
      obtain ⟨r, hr⟩ := hasOverlap_total h1 h2 b [u']
      unfold hasOverlap at hr
      rw [hts'] at hr
      obtain ⟨_, hx, hr⟩ := bind_ok.1 hr
      cases hx
      obtain ⟨r', hr', _⟩ := bind_ok.1 hr
      rw [hr']
      simp only
      split
      · rfl
      · exact ih hu'

theorem overlapOuter_error {tol par : ℝ} {us : Nat → Nat → List (Fin 5 → ℝ)} (l : List (Elem S))
    (hw : ∀ e ∈ l, WF e.shape) (hb : ∀ e ∈ l, ∃ b, bbox e.shape = .ok b) (i : Nat)
    (h1 : ∀ s : Shape, WF s → ∀ p v, ∃ ts, intersect tol par s p v = .ok ts)
    (h2 : ∀ s : Shape, WF s → ∀ p, ∃ l, locate tol s p = .ok l)
    (h : overlapOuter tol par us i l ≠ .ok ()) :
    ∃ m n e1 e2 b, m < n ∧ l[m]? = some e1 ∧ l[n]? = some e2 ∧ bbox e1.shape = .ok b ∧
      hasOverlap tol par e1.shape e2.shape b (us (i + m) (i + n)) = .ok true := by
  induction l generalizing i with
  | nil => exact absurd rfl h
  | cons e l ih =>
    obtain ⟨b, hb'⟩ := hb e (by simp)
    unfold overlapOuter at h
    rw [hb'] at h
    simp only [bind, Except.bind] at h
    cases hin : overlapInner tol par us i e.shape b (i + 1) l with
    | error x =>
      obtain ⟨k, e', he, hk⟩ := overlapInner_error
        (fun s2 hs2 us => hasOverlap_total (h1 _ (hw e (by simp))) (h2 s2 hs2) b us) l
        (fun e he => hw e (List.mem_cons_of_mem _ he)) (i + 1) (by rw [hin]; simp)
      exact ⟨0, k + 1, e, e', b, by omega, rfl, by simpa using he, hb', by
        rw [show i + (k + 1) = i + 1 + k by ring]; exact hk⟩
    | ok x =>
      rw [hin] at h
      simp only at h
      obtain ⟨m, n, e1, e2, b', hmn, he1, he2, hb2, hov⟩ := ih (fun e he => hw e (List.mem_cons_of_mem _ he))
        (fun e he => hb e (List.mem_cons_of_mem _ he)) (i + 1) h
      exact ⟨m + 1, n + 1, e1, e2, b', by omega, by simpa using he1, by simpa using he2, hb2, by
        rw [show i + (m + 1) = i + 1 + m by ring, show i + (n + 1) = i + 1 + n by ring]; exact hov⟩

theorem overlapOuter_ok {tol par : ℝ} {us : Nat → Nat → List (Fin 5 → ℝ)} (l : List (Elem S)) (i : Nat)
    (h : overlapOuter tol par us i l = .ok ()) :
    ∀ m n e1 e2 b, m < n → l[m]? = some e1 → l[n]? = some e2 → bbox e1.shape = .ok b →
      hasOverlap tol par e1.shape e2.shape b (us (i + m) (i + n)) = .ok false := by
  induction l generalizing i with
  | nil => simp
  | cons e l ih =>
    unfold overlapOuter at h
    obtain ⟨b, hb, h⟩ := bind_ok.1 h
    obtain ⟨x, hx, h⟩ := bind_ok.1 h
    intro m n e1 e2 b' hmn he1 he2 hb'
    obtain ⟨n, rfl⟩ : ∃ n', n = n' + 1 := ⟨n - 1, by omega⟩
    cases m with
    | zero =>
      simp only [List.getElem?_cons_zero, Option.some.injEq] at he1
      subst he1
      rw [hb] at hb'
      cases hb'
      have := overlapInner_ok l (i + 1) hx n e2 (by simpa using he2)
      rw [show i + (n + 1) = i + 1 + n by ring]; exact this
    | succ m =>
      have := ih (i + 1) h m n e1 e2 b' (by omega) (by simpa using he1) (by simpa using he2) hb'
      rw [show i + (m + 1) = i + 1 + m by ring, show i + (n + 1) = i + 1 + n by ring]; exact this

end Verif.Composite
