import Verif.Spec.Detector
import Mathlib.Algebra.BigOperators.Group.List.Basic
import Mathlib.Algebra.Order.Field.Basic
import Mathlib.Tactic.Ring
import Mathlib.Tactic.Linarith
import Mathlib.Tactic.Positivity
/-! Helper lemmas about detectors. -/

namespace Verif.Detector

theorem InRange.prod_pos {cs dims : List Nat} (h : InRange cs dims) : 0 < dims.prod := by
  induction h with
  | nil => simp
  | cons h1 _ ih => rw [List.prod_cons]; exact Nat.mul_pos (by omega) ih

theorem rowMajor_lt {cs dims : List Nat} (h : InRange cs dims) : rowMajor cs dims < dims.prod := by
  induction h with
  | nil => simp [rowMajor]
  | @cons c d cs ds h1 h2 ih =>
    simp only [rowMajor, List.prod_cons]
    calc c * ds.prod + rowMajor cs ds < c * ds.prod + ds.prod := by omega
      _ = (c + 1) * ds.prod := by ring
      _ ≤ d * ds.prod := Nat.mul_le_mul_right _ h1

theorem rowMajor_inj {dims : List Nat} : ∀ {cs cs' : List Nat}, InRange cs dims → InRange cs' dims →
    rowMajor cs dims = rowMajor cs' dims → cs = cs' := by
  induction dims with
  | nil => intro cs cs' h h' _; cases h; cases h'; rfl
  | cons d ds ih =>
    intro cs cs' h h' he
    cases h with
    | @cons c _ cs _ h1 h2 =>
    cases h' with
    | @cons c' _ cs' _ h1' h2' =>
    simp only [rowMajor] at he
    have b1 := rowMajor_lt h2
    have b2 := rowMajor_lt h2'
    have hp := InRange.prod_pos h2
    have hc : c = c' := by
      have e1 : (c * ds.prod + rowMajor cs ds) / ds.prod = c := by
        rw [Nat.mul_comm, Nat.mul_add_div hp, Nat.div_eq_of_lt b1, Nat.add_zero]
      have e2 : (c' * ds.prod + rowMajor cs' ds) / ds.prod = c' := by
        rw [Nat.mul_comm, Nat.mul_add_div hp, Nat.div_eq_of_lt b2, Nat.add_zero]
      rw [← e1, ← e2, he]
    subst hc
    rw [ih h2 h2' (by omega)]

theorem pixelLoop_eq (rest : List Int) {cs dims : List Nat} (h : InRange cs dims) : ∀ acc,
    (acc + 1) * dims.prod ≤ 2 ^ 32 →
    pixelLoop acc (cs.map (fun n : Nat => (n : Int)) ++ rest) dims = acc * dims.prod + rowMajor cs dims := by
  induction h with
  | nil => intro acc _; cases rest <;> simp [pixelLoop, rowMajor]
  | @cons c d cs ds h1 h2 ih =>
    intro acc hacc
    simp only [List.map_cons, List.cons_append, pixelLoop, rowMajor, List.prod_cons, Int.toNat_natCast]
    have hp := InRange.prod_pos h2
    rw [List.prod_cons] at hacc
    have hb : (acc * d + c + 1) * ds.prod ≤ 2 ^ 32 := by
      refine le_trans (Nat.mul_le_mul_right _ ?_) (le_of_eq_of_le (Nat.mul_assoc _ _ _) hacc)
      calc acc * d + c + 1 ≤ acc * d + d := by omega
        _ = (acc + 1) * d := by ring
    have hlt : acc * d + c < 2 ^ 32 := by
      have : (acc * d + c + 1) * 1 ≤ (acc * d + c + 1) * ds.prod := Nat.mul_le_mul_left _ hp
      omega
    rw [Nat.mod_eq_of_lt hlt, ih _ hb]
    ring

theorem checkLoop_ok {cs dims : List Nat} (h : InRange cs dims) (rest : List Int) :
    checkLoop (cs.map (fun n : Nat => (n : Int)) ++ rest) dims = checkLoop rest [] := by
  induction h with
  | nil => simp
  | @cons c d cs ds h1 h2 ih =>
    simp only [List.map_cons, List.cons_append, checkLoop]
    rw [if_neg (by omega), if_neg (by omega), ih]

theorem checkLoop_negative {cs dims : List Nat} (h : InRange cs dims) (c : Int) (hc : c < 0) (rest : List Int) (more : List Nat) :
    checkLoop (cs.map (fun n : Nat => (n : Int)) ++ c :: rest) (dims ++ more) = .ok false := by
  induction h with
  | nil => simp [checkLoop, hc]
  | @cons c d cs ds h1 h2 ih =>
    simp only [List.map_cons, List.cons_append, checkLoop]
    rw [if_neg (by omega), if_neg (by omega), ih]

theorem checkLoop_large {cs dims : List Nat} (h : InRange cs dims) (c : Int) (d : Nat) (hc : (d : Int) ≤ c) (rest : List Int)
    (more : List Nat) :
    checkLoop (cs.map (fun n : Nat => (n : Int)) ++ c :: rest) (dims ++ d :: more) = .error .cppException := by
  induction h with
  | nil => simp [checkLoop, hc]; omega
  | @cons c d cs ds h1 h2 ih =>
    simp only [List.map_cons, List.cons_append, checkLoop]
    rw [if_neg (by omega), if_neg (by omega), ih]

/-! ### hierarchy -/

/-- shapes only grow -/
structure Grows (s s' : Dims) : Prop where
  shape : ∀ (i d : Nat), s.shape[i]? = some d → ∃ d' : Nat, s'.shape[i]? = some d' ∧ d ≤ d'
  layers : s.layers <+: s'.layers

theorem Grows.refl (s : Dims) : Grows s s := ⟨fun _ d h => ⟨d, h, le_refl _⟩, List.prefix_refl _⟩
theorem Grows.trans {a b c : Dims} (h1 : Grows a b) (h2 : Grows b c) : Grows a c :=
  ⟨fun i d h => by
    obtain ⟨d', hd', hle⟩ := h1.shape i d h
    obtain ⟨d'', hd'', hle'⟩ := h2.shape i d' hd'
    exact ⟨d'', hd'', hle.trans hle'⟩, h1.layers.trans h2.layers⟩

/-- the names and the numbers of the levels go together, but for an empty last level -/
def Aligned (level : Nat) (s : Dims) : Prop :=
  s.layers.length = s.shape.length ∨ (s.shape.length = s.layers.length + 1 ∧ level ≤ s.layers.length)

theorem enter_spec {level : Nat} {es : List Elem} {s s' : Dims} (ha : Aligned level s) (h : enter level es s = .ok s') :
    Grows s s' ∧ (Aligned level s') ∧ (es ≠ [] → Aligned (level + 1) s' ∧ level < s'.layers.length) ∧
      ∃ d : Nat, s'.shape[level]? = some d ∧ es.length ≤ d := by
  unfold enter at h
  simp only at h
  split at h
  · rename_i hl
    cases es with
    | nil =>
      simp only [Except.ok.injEq] at h
      subst h
      refine ⟨⟨fun i d hd => ⟨d, ?_, le_refl _⟩, List.prefix_refl _⟩, ?_, by simp, 0, ?_, by simp⟩
      · simp only; rw [List.getElem?_append_left]; exact hd
        rw [List.getElem?_eq_some_iff] at hd; exact hd.1
      · rcases ha with ha | ⟨ha1, ha2⟩
        · right; simp; omega
        · omega
      · simp [hl]
    | cons e0 es =>
      simp only at h
      split at h
      · simp only [Except.ok.injEq] at h
        subst h
        refine ⟨⟨fun i d hd => ⟨d, ?_, le_refl _⟩, List.prefix_append _ _⟩, ?_, fun _ => ⟨?_, ?_⟩, (e0 :: es).length, ?_, le_refl _⟩
        · simp only; rw [List.getElem?_append_left]; exact hd
          rw [List.getElem?_eq_some_iff] at hd; exact hd.1
        · rcases ha with ha | ⟨ha1, ha2⟩
          · left; simp; omega
          · omega
        · rcases ha with ha | ⟨ha1, ha2⟩
          · left; simp; omega
          · omega
        · rcases ha with ha | ⟨ha1, ha2⟩
          · simp; omega
          · omega
        · simp [hl]
      · exact absurd h (by simp)
  · rename_i hl
    split at h
    · rename_i hl2
      split at h
      · exact absurd h (by simp)
      · rename_i t ht
        have hll : level < s.layers.length := by
          rw [List.getElem?_eq_some_iff] at ht; exact ht.1
        split at h
        · simp only [Except.ok.injEq] at h
          subst h
          refine ⟨⟨fun i d hd => ?_, List.prefix_refl _⟩, ?_, fun _ => ⟨?_, ?_⟩, max (s.shape.getD level 0) es.length, ?_, ?_⟩
          · simp only
            by_cases hi : i = level
            · subst hi
              refine ⟨_, by rw [List.getElem?_set_self hl2], ?_⟩
              rw [List.getD_eq_getElem?_getD, hd]; exact le_max_left _ _
            · exact ⟨d, by rw [List.getElem?_set_ne (Ne.symm hi)]; exact hd, le_refl _⟩
          · simpa [Aligned] using ha
          · simp only [Aligned, List.length_set] at ha ⊢; omega
          · exact hll
          · simp only; rw [List.getElem?_set_self hl2]
          · exact le_max_right _ _
        · exact absurd h (by simp)
    · exact absurd h (by simp)

/-- what a visit guarantees -/
structure VisitOk (level : Nat) (s s' : Dims) (conts : Nat → List Elem → Prop) : Prop where
  grows : Grows s s'
  aligned : Aligned level s'
  bound : ∀ l es, conts l es → (∃ d : Nat, s'.shape[level + l]? = some d ∧ es.length ≤ d) ∧ (es ≠ [] → level + l < s'.layers.length)

mutual
theorem visit_spec : ∀ (e : Elem) (level : Nat) (s s' : Dims), Aligned level s → visit level e s = .ok s' →
    VisitOk level s s' (fun l es => ∃ t, Occurs e l (.container t es))
  | .leaf t, level, s, s', ha, h => by
    simp only [visit, Except.ok.injEq] at h; subst h
    refine ⟨Grows.refl s, ha, ?_⟩
    rintro l es ⟨t, ho⟩; cases ho
  | .copy t r, level, s, s', ha, h => by
    simp only [visit, Except.ok.injEq] at h; subst h
    refine ⟨Grows.refl s, ha, ?_⟩
    rintro l es ⟨t, ho⟩; cases ho
  | .container t es, level, s, s', ha, h => by
    simp only [visit] at h
    split at h
    · exact absurd h (by simp)
    · rename_i s1 h1
      obtain ⟨g1, a1, a2, d, hd, hle⟩ := enter_spec ha h1
      by_cases hes : es = []
      · subst hes
        simp only [visitAll, Except.ok.injEq] at h; subst h
        refine ⟨g1, a1, ?_⟩
        rintro l es' ⟨t', ho⟩
        cases ho with
        | self => exact ⟨⟨d, hd, hle⟩, by simp⟩
        | inside hm _ => simp at hm
      · obtain ⟨a3, a4⟩ := a2 hes
        have hv := visitAll_spec es (level + 1) s1 s' a3 h
        obtain ⟨g2, b1, b2⟩ := hv
        have hl2 : level < s'.layers.length := lt_of_lt_of_le a4 g2.layers.length_le
        refine ⟨g1.trans g2, ?_, ?_⟩
        · simp only [Aligned] at b1 ⊢; omega
        · rintro l es' ⟨t', ho⟩
          cases ho with
          | self =>
            obtain ⟨d', hd', hle'⟩ := g2.shape _ _ hd
            exact ⟨⟨d', hd', hle.trans hle'⟩, fun _ => hl2⟩
          | @inside _ _ e _ l hm ho =>
            have := b2 l es' ⟨e, hm, t', ho⟩
            rw [show level + 1 + l = level + (l + 1) from by omega] at this
            exact this
theorem visitAll_spec : ∀ (es : List Elem) (level : Nat) (s s' : Dims), Aligned level s → visitAll level es s = .ok s' →
    VisitOk level s s' (fun l es' => ∃ e ∈ es, ∃ t, Occurs e l (.container t es'))
  | [], level, s, s', ha, h => by
    simp only [visitAll, Except.ok.injEq] at h; subst h
    refine ⟨Grows.refl s, ha, ?_⟩
    rintro l es ⟨e, he, _⟩; simp at he
  | e :: es, level, s, s', ha, h => by
    simp only [visitAll] at h
    split at h
    · exact absurd h (by simp)
    · rename_i s1 h1
      obtain ⟨g1, a1, b1⟩ := visit_spec e level s s1 ha h1
      obtain ⟨g2, a2, b2⟩ := visitAll_spec es level s1 s' a1 h
      refine ⟨g1.trans g2, a2, ?_⟩
      rintro l es' ⟨e', he', t, ho⟩
      rcases List.mem_cons.1 he' with rfl | hm
      · obtain ⟨⟨d, hd, hle⟩, hl⟩ := b1 l es' ⟨t, ho⟩
        obtain ⟨d', hd', hle'⟩ := g2.shape _ _ hd
        exact ⟨⟨d', hd', hle.trans hle'⟩, fun hne => lt_of_lt_of_le (hl hne) g2.layers.length_le⟩
      · exact b2 l es' ⟨e', hm, t, ho⟩
end

/-- the dimension of a level bounds the number of elements of every container of the level -/
theorem dims_bound {system : Elem} {dims : List (String × Nat)} (h : hierarchyDims system = .ok dims) {l : Nat} {t : String}
    {es : List Elem} (ho : Occurs system l (.container t es)) (hne : es ≠ []) : ∃ x, dims[l]? = some x ∧ es.length ≤ x.2 := by
  unfold hierarchyDims at h
  split at h
  · exact absurd h (by simp)
  · rename_i s hs
    simp only [Except.ok.injEq] at h
    subst h
    obtain ⟨-, -, hb⟩ := visit_spec system 0 ⟨[], []⟩ s (Or.inl rfl) hs
    obtain ⟨⟨d, hd, hle⟩, hl⟩ := hb l es ⟨t, ho⟩
    rw [Nat.zero_add] at hd hl
    refine ⟨((s.layers[l]'(hl hne)), d), ?_, hle⟩
    rw [List.getElem?_zip_eq_some]
    exact ⟨List.getElem?_eq_getElem (hl hne), hd⟩

theorem Occurs.trans_step {e : Elem} {l : Nat} {t : String} {es : List Elem} (h : Occurs e l (.container t es)) {c : Elem} (hc : c ∈ es) :
    Occurs e (l + 1) c := by
  generalize hx : (Elem.container t es) = x at h
  induction h with
  | self e => subst hx; exact .inside hc (.self c)
  | inside hm _ ih => exact .inside hm (ih hx)

/-- every path of indexes stays below the dimensions -/
theorem located_bound {system : Elem} {dims : List (String × Nat)} (h : hierarchyDims system = .ok dims)
    (hcopy : CopiesInside system) {e : Elem} {path : List Nat} {es : List Elem} (hl : Located e path es) :
    ∀ l, Occurs system l e → es ≠ [] →
    (∀ k i, path[k]? = some i → ∃ x, dims[l + k]? = some x ∧ i < x.2) ∧ ∃ x, dims[l + path.length]? = some x ∧ es.length ≤ x.2 := by
  induction hl with
  | here t es =>
    intro l ho hne
    exact ⟨by simp, by simpa using dims_bound h ho hne⟩
  | @step t es i c path es' hi hl ih =>
    intro l ho hne
    have hc : c ∈ es := List.mem_of_getElem? hi
    obtain ⟨h1, h2⟩ := ih (l + 1) (ho.trans_step hc) hne
    have hne' : es ≠ [] := by rintro rfl; simp at hc
    obtain ⟨x, hx, hle⟩ := dims_bound h ho hne'
    have hilt : i < es.length := by rw [List.getElem?_eq_some_iff] at hi; exact hi.1
    refine ⟨?_, ?_⟩
    · intro k j hk
      cases k with
      | zero => simp at hk; subst hk; exact ⟨x, by simpa using hx, by omega⟩
      | succ k =>
        obtain ⟨x', hx', hlt⟩ := h1 k j (by simpa using hk)
        exact ⟨x', by rw [← hx']; congr 1; omega, hlt⟩
    · obtain ⟨x', hx', hle'⟩ := h2
      exact ⟨x', by rw [← hx']; simp only [List.length_cons]; congr 1; omega, hle'⟩
  | copy _ ih => intro l ho hne; exact ih l (hcopy _ _ _ ho) hne

end Verif.Detector
