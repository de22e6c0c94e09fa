import Verif.Spec.Monitor
import Mathlib.Algebra.Order.Field.Basic
import Mathlib.Algebra.BigOperators.Group.List.Basic
import Mathlib.Tactic.FieldSimp
import Mathlib.Tactic.Ring
import Mathlib.Tactic.Linarith
import Mathlib.Tactic.LinearCombination
import Mathlib.Tactic.Positivity
/-! Helper lemmas about monitors. -/

namespace Verif.Monitor
variable {F : Type} [Field F] [LinearOrder F]

omit [LinearOrder F] in
theorem crosses_iff [DecidableEq F] (e e' : Event F) : Crosses e e' ↔
    (if e.v.z = 0 then none else some { e with r := ⟨e.r.x + e.v.x * (-e.r.z / e.v.z), e.r.y + e.v.y * (-e.r.z / e.v.z), 0⟩, t := e.t + -e.r.z / e.v.z }) = some e' := by
  constructor
  · rintro ⟨hz, hv, hp, h1, h2, dt, ht, hr, h0⟩
    rw [if_neg hz]
    have hdt : dt = -e.r.z / e.v.z := by
      rw [hr] at h0
      simp at h0
      rw [eq_div_iff hz]
      linear_combination h0
    subst hdt
    cases e'
    simp only at *
    subst hv hp h1 h2 ht hr
    simp only [Option.some.injEq, Event.mk.injEq, and_true]
    ext
    · simp [mul_comm]
    · simp [mul_comm]
    · simpa using h0.symm
  · intro h
    split at h
    · exact absurd h (by simp)
    · rename_i hz
      simp only [Option.some.injEq] at h
      subst h
      refine ⟨hz, rfl, rfl, rfl, rfl, -e.r.z / e.v.z, rfl, ?_, rfl⟩
      ext
      · simp [mul_comm]
      · simp [mul_comm]
      · simp
        rw [div_mul_cancel₀ _ hz]; simp

theorem toZ0_iff (e e' : Event F) : toZ0 e = some e' ↔ Crosses e e' := by
  rw [crosses_iff]; rfl

theorem Crosses.unique {e a b : Event F} (ha : Crosses e a) (hb : Crosses e b) : a = b := by
  rw [← toZ0_iff] at ha hb
  rw [ha] at hb; exact Option.some.inj hb

theorem hits_eq (acc : Event F → Bool) (P : Event F → Prop) [DecidablePred P]
    (hP : ∀ e, P e ↔ ∃ e', Crosses e e' ∧ acc e' = true) (l : List (Event F)) :
    (l.filterMap toZ0).filter acc = (l.filter (fun e => decide (P e))).filterMap toZ0 := by
  induction l with
  | nil => rfl
  | cons e l ih =>
    rw [List.filterMap_cons, List.filter_cons]
    cases hz : toZ0 e with
    | none =>
      have : ¬ P e := by
        rw [hP]; rintro ⟨e', hc, -⟩
        rw [← toZ0_iff, hz] at hc; exact absurd hc (by simp)
      simp [this, ih]
    | some e' =>
      have hc := (toZ0_iff e e').1 hz
      by_cases ha : acc e' = true
      · have : P e := (hP e).2 ⟨e', hc, ha⟩
        simp [this, ha, hz, ih]
      · have : ¬ P e := by
          rw [hP]; rintro ⟨e'', hc', ha'⟩
          rw [hc.unique hc'] at ha; exact ha ha'
        simp [this, ha, ih]

theorem Area.hit_iff (a : Area F) (e : Event F) : a.Hit e ↔ ∃ e', Crosses e e' ∧ a.accepts e' = true := by
  simp only [Area.Hit, Area.accepts, Bool.and_eq_true, decide_eq_true_eq]
  constructor
  · rintro ⟨e', hc, h1, h2, h3, h4, h5, h6⟩; exact ⟨e', hc, ⟨⟨⟨⟨⟨h1, h2⟩, h3⟩, h4⟩, h5⟩, h6⟩⟩
  · rintro ⟨e', hc, ⟨⟨⟨⟨⟨h1, h2⟩, h3⟩, h4⟩, h5⟩, h6⟩⟩; exact ⟨e', hc, h1, h2, h3, h4, h5, h6⟩

section
variable [IsStrictOrderedRing F] [FloorRing F]

theorem inPart_floor {lo hi : F} {n : Nat} (hn : 0 < n) {v : F} (h1 : lo ≤ v) (h2 : v < hi) :
    InPart lo hi n v ⌊(v - lo) / ((hi - lo) / n)⌋ := by
  have hnF : (0 : F) < n := by exact_mod_cast hn
  have hd : 0 < (hi - lo) / n := div_pos (by linarith) hnF
  refine ⟨Int.floor_nonneg.2 (div_nonneg (by linarith) hd.le), ?_, ?_, ?_⟩
  · rw [Int.floor_lt, div_lt_iff₀ hd]
    have : ((n : Int) : F) * ((hi - lo) / n) = hi - lo := by
      rw [Int.cast_natCast, mul_div_cancel₀ _ hnF.ne']
    rw [this]; linarith
  · have := Int.floor_le ((v - lo) / ((hi - lo) / n))
    rw [le_div_iff₀ hd] at this
    linarith
  · have := Int.lt_floor_add_one ((v - lo) / ((hi - lo) / n))
    rw [div_lt_iff₀ hd] at this
    linarith

omit [FloorRing F] in
theorem InPart.unique {lo hi : F} {n : Nat} {v : F} {j k : Int} (hlt : lo < hi)
    (hj : InPart lo hi n v j) (hk : InPart lo hi n v k) : j = k := by
  have hn : 0 < n := by obtain ⟨h1, h2, -⟩ := hj; omega
  have hnF : (0 : F) < n := by exact_mod_cast hn
  have hd : 0 < (hi - lo) / n := div_pos (by linarith) hnF
  obtain ⟨-, -, a1, a2⟩ := hj
  obtain ⟨-, -, b1, b2⟩ := hk
  have c1 : (j : F) < k + 1 := by
    have : (j : F) * ((hi - lo) / n) < (k + 1) * ((hi - lo) / n) := by linarith
    exact lt_of_mul_lt_mul_right this hd.le
  have c2 : (k : F) < j + 1 := by
    have : (k : F) * ((hi - lo) / n) < (j + 1) * ((hi - lo) / n) := by linarith
    exact lt_of_mul_lt_mul_right this hd.le
  have d1 : j < k + 1 := by exact_mod_cast c1
  have d2 : k < j + 1 := by exact_mod_cast c2
  omega

omit [FloorRing F] in
theorem InPart.lt_hi {lo hi : F} {n : Nat} {v : F} {j : Int} (hlt : lo < hi) (h : InPart lo hi n v j) : v < hi ∧ lo ≤ v := by
  obtain ⟨h0, h1, h2, h3⟩ := h
  have hn : 0 < n := by omega
  have hnF : (0 : F) < n := by exact_mod_cast hn
  have hd : 0 < (hi - lo) / n := div_pos (by linarith) hnF
  have hj : (j : F) + 1 ≤ n := by exact_mod_cast h1
  have h0' : (0 : F) ≤ j := by exact_mod_cast h0
  have e1 : ((j : F) + 1) * ((hi - lo) / n) ≤ n * ((hi - lo) / n) := mul_le_mul_of_nonneg_right hj hd.le
  have e2 : (n : F) * ((hi - lo) / n) = hi - lo := mul_div_cancel₀ _ hnF.ne'
  have e3 : 0 ≤ (j : F) * ((hi - lo) / n) := mul_nonneg h0' hd.le
  constructor <;> linarith

theorem Axis.bin_iff {a : Axis F} (ha : a.Valid) (v : F) (k : Nat) : a.bin v = some k ↔ a.InBin v k := by
  obtain ⟨hb, hlt⟩ := ha
  simp only [Axis.bin, Axis.InBin]
  split
  · rename_i h
    simp only [reduceCtorEq, false_iff, not_or]
    constructor
    · intro hp
      have := hp.lt_hi hlt
      rcases h with h | h
      · exact absurd this.2 (not_le.2 h)
      · exact absurd this.1 (not_lt.2 h.le)
    · rintro ⟨rfl, -⟩
      rcases h with h | h
      · exact absurd hlt (not_lt.2 h.le)
      · exact absurd h (lt_irrefl _)
  · rename_i h
    rw [not_or, not_lt, not_lt] at h
    split
    · rename_i he
      subst he
      simp only [Option.some.injEq]
      constructor
      · intro hk; exact Or.inr ⟨trivial, by omega⟩
      · rintro (hp | ⟨-, hk⟩)
        · exact absurd (hp.lt_hi hlt).1 (lt_irrefl _)
        · omega
    · rename_i he
      have hp := inPart_floor hb h.1 (lt_of_le_of_ne h.2 he)
      simp only [Option.some.injEq]
      constructor
      · intro hk
        left
        rw [← hk, Int.toNat_of_nonneg hp.1]
        exact hp
      · rintro (hq | ⟨hv, -⟩)
        · rw [hp.unique hlt hq]; simp
        · exact absurd hv he

theorem cell_iff {axes : List (Axis F)} (hv : ∀ a ∈ axes, a.Valid) (e : Event F) (c : List Nat) :
    cell axes e = some c ↔ List.Forall₂ (fun (a : Axis F) k => a.InBin (a.expr e) k) axes c := by
  induction axes generalizing c with
  | nil => cases c <;> simp [cell]
  | cons a axes ih =>
    have ih' := ih (fun a ha => hv a (List.mem_cons_of_mem _ ha))
    have hb := fun k => Axis.bin_iff (hv a (List.mem_cons_self ..)) (a.expr e) k
    simp only [cell] at ih' ⊢
    rw [List.mapM_cons]
    cases c with
    | nil =>
      cases a.bin (a.expr e) <;> cases List.mapM (fun a => a.bin (a.expr e)) axes <;> simp
    | cons k c =>
      rw [List.forall₂_cons, ← hb k, ← ih' c]
      cases h1 : a.bin (a.expr e) with
      | none => simp
      | some k' =>
        cases h2 : List.mapM (fun a => a.bin (a.expr e)) axes with
        | none => simp
        | some c' => simp

omit [IsStrictOrderedRing F] in
theorem hdd_append (axes : List (Axis F)) (w : Event F → F) (l1 l2 : List (Event F)) (c : List Nat) :
    hdd axes w (l1 ++ l2) c = hdd axes w l1 c + hdd axes w l2 c := by
  induction l1 with
  | nil => simp [hdd]
  | cons e l1 ih => simp [hdd, ih, add_assoc]

theorem inArea_counted {axes : List (Axis F)} (hv : ∀ a ∈ axes, a.Valid) (xw yh : F) (c : List Nat) (e : Event F) :
    Counted axes xw yh c e ↔ ∃ e', Crosses e e' ∧ inArea xw yh e' = true ∧ cell axes e' = some c := by
  simp only [Counted, inArea, Bool.and_eq_true, decide_eq_true_eq]
  constructor
  · rintro ⟨e', hc, h1, h2, h3, h4, h5⟩
    exact ⟨e', hc, ⟨⟨⟨h1, h2⟩, h3⟩, h4⟩, (cell_iff hv e' c).2 h5⟩
  · rintro ⟨e', hc, ⟨⟨⟨h1, h2⟩, h3⟩, h4⟩, h5⟩
    exact ⟨e', hc, h1, h2, h3, h4, (cell_iff hv e' c).1 h5⟩

/-- one histogram of one batch is the sum over the counted neutrons -/
theorem hdd_eq {axes : List (Axis F)} (hv : ∀ a ∈ axes, a.Valid) (xw yh : F) (w : Event F → F)
    (hw : ∀ e e', Crosses e e' → w e' = w e) (c : List Nat) [DecidablePred (Counted axes xw yh c)] (l : List (Event F)) :
    hdd axes w ((l.filterMap toZ0).filter (inArea xw yh)) c = ((l.filter (fun e => decide (Counted axes xw yh c e))).map w).sum := by
  induction l with
  | nil => rfl
  | cons e l ih =>
    rw [List.filterMap_cons, List.filter_cons]
    cases hz : toZ0 e with
    | none =>
      have : ¬ Counted axes xw yh c e := by
        rw [inArea_counted hv]; rintro ⟨e', hc, -⟩
        rw [← toZ0_iff, hz] at hc; exact absurd hc (by simp)
      simp [this, ih]
    | some e' =>
      have hc := (toZ0_iff e e').1 hz
      by_cases ha : inArea xw yh e' = true
      · by_cases hcell : cell axes e' = some c
        · have : Counted axes xw yh c e := (inArea_counted hv xw yh c e).2 ⟨e', hc, ha, hcell⟩
          simp [this, ha, hdd, hcell, ih, hw e e' hc]
        · have : ¬ Counted axes xw yh c e := by
            rw [inArea_counted hv]; rintro ⟨e'', hc', ha', hk⟩
            rw [hc.unique hc'] at hcell; exact hcell hk
          simp [this, ha, hdd, hcell, ih]
      · have : ¬ Counted axes xw yh c e := by
          rw [inArea_counted hv]; rintro ⟨e'', hc', ha', hk⟩
          rw [hc.unique hc'] at ha; exact ha ha'
        simp [this, ha, ih]

omit [IsStrictOrderedRing F] in
theorem ndProcess_ok (axes : List (Axis F)) {xw yh : F} (hx : 0 < xw) (hy : 0 < yh) (h : Hist F) (b : List (Event F)) :
    ndProcess axes xw yh h b = .ok
      ⟨fun c => h.I c + hdd axes (fun e => e.p) ((b.filterMap toZ0).filter (inArea xw yh)) c,
       fun c => h.E2 c + hdd axes (fun e => e.p * e.p) ((b.filterMap toZ0).filter (inArea xw yh)) c⟩ := by
  unfold ndProcess
  split
  · rename_i hb
    have : b = [] := by simpa using hb
    subst this
    simp [hdd]
  · rw [if_neg (by simp [hx, hy])]
    simp only
    split
    · rename_i hb
      have : (b.filterMap toZ0).filter (inArea xw yh) = [] := by simpa using hb
      simp [this, hdd]
    · rfl

end
end Verif.Monitor
