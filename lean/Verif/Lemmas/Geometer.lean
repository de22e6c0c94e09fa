import Verif.Spec.Geometer
import Verif.Lemmas.Frames
/-! Helper lemmas about the geometer. -/

namespace Verif.Geometer
open Verif.Frames
variable {N F : Type} [CommRing F] [DecidableEq N]

theorem labVec_ext {a b : M3 F} (h : ∀ x, labVec a x = labVec b x) : a = b := by
  have e1 := h ⟨1, 0, 0⟩
  have e2 := h ⟨0, 1, 0⟩
  have e3 := h ⟨0, 0, 1⟩
  simp only [labVec, V3.ext_iff, V3.add_x, V3.add_y, V3.add_z, V3.smul_x, V3.smul_y, V3.smul_z, one_mul,
    zero_mul, add_zero, zero_add] at e1 e2 e3
  ext <;> simp [e1, e2, e3]

theorem labVec_mul (a b : M3 F) (x : V3 F) : labVec (a.mul b) x = labVec b (labVec a x) := by
  ext <;> simp [labVec, M3.mul, M3.transpose, M3.mulVec] <;> ring

theorem findIdx?_eq (seq : List N) (e : N) (i : Nat) :
    seq.findIdx? (fun x => decide (x = e)) = some i ↔ ∃ l1 l2, seq = l1 ++ e :: l2 ∧ e ∉ l1 ∧ l1.length = i := by
  constructor
  · intro h
    obtain ⟨hi, h1, h2⟩ := List.findIdx?_eq_some_iff_getElem.mp h
    refine ⟨seq.take i, seq.drop (i + 1), ?_, ?_, ?_⟩
    · have he : seq[i] = e := by simpa using h1
      rw [← he]
      exact (List.take_append_drop i seq).symm.trans (by rw [List.drop_eq_getElem_cons hi])
    · intro hm
      obtain ⟨j, hj, hje⟩ := List.getElem_of_mem hm
      have hj' : j < i := by rw [List.length_take] at hj; omega
      have := h2 j hj'
      rw [List.getElem_take] at hje
      simp [hje] at this
    · rw [List.length_take]; omega
  · rintro ⟨l1, l2, rfl, h1, rfl⟩
    rw [List.findIdx?_eq_some_iff_getElem]
    refine ⟨by simp, by simp, ?_⟩
    intro j hj
    have hne : (l1 ++ e :: l2)[j]'(by simp; omega) ∈ l1 := by
      rw [List.getElem_append_left hj]; exact List.getElem_mem _
    simp only [decide_eq_true_eq]
    intro he
    exact h1 (he ▸ hne)

omit [CommRing F] in
theorem findReference_iff (g : Geo N F) (tgt : Ref N) (e r : N) :
    findReference g tgt e = .ok r ↔ Refers g.seq e tgt r := by
  cases tgt with
  | elem n => simp only [findReference, Refers, Except.ok.injEq]; exact eq_comm
  | previous =>
    simp only [findReference, Refers]
    cases hs : g.seq with
    | none => simp
    | some seq =>
      simp only [Option.some.injEq]
      constructor
      · intro h
        split at h
        · cases h
        · cases h
        · next i hi =>
          obtain ⟨l1, l2, hl, hn, hlen⟩ := (findIdx?_eq seq e (i + 1)).mp hi
          split at h
          · next r' hr =>
            injection h with h; subst h
            have hne : l1 ≠ [] := by rintro rfl; simp at hlen
            have hl1 : l1 = l1.dropLast ++ [l1.getLast hne] := (List.dropLast_append_getLast hne).symm
            have hlast : l1.getLast hne = r' := by
              rw [hl, List.getElem?_append_left (by omega)] at hr
              rw [List.getLast_eq_getElem]
              have : l1.length - 1 = i := by omega
              simp only [this]
              rw [List.getElem?_eq_getElem (by omega)] at hr
              injection hr
            refine ⟨l1.dropLast, l2, ?_, ?_⟩
            · rw [hl]; conv => lhs; rw [hl1, hlast]
              simp
            · rw [hlast] at hl1; rwa [← hl1]
          · cases h
      · rintro ⟨l1, l2, hl, hn⟩
        have := (findIdx?_eq seq e (l1.length + 1)).mpr ⟨l1 ++ [r], l2, by simp [hl], hn, by simp⟩
        rw [this]
        simp [hl]

theorem Refers.unique {seq : Option (List N)} {e : N} {tgt : Ref N} {r r' : N} (h : Refers seq e tgt r)
    (h' : Refers seq e tgt r') : r = r' := by
  let g : Geo N ℤ := empty seq
  have a := (findReference_iff g tgt e r).mpr h
  have b := (findReference_iff g tgt e r').mpr h'
  rw [a] at b
  injection b

theorem HasOri.unique {toM : V3 F → M3 F} {reg seq} {e : N} {m : M3 F} (h : HasOri toM reg seq e m) :
    ∀ m', HasOri toM reg seq e m' → m = m' := by
  induction h with
  | absolute h =>
    intro m' h'
    cases h' with
    | absolute h2 => rw [h] at h2; cases h2; rfl
    | relative h2 _ _ _ => rw [h] at h2; cases h2
  | relative h hr _ hx ih =>
    intro m' h'
    cases h' with
    | absolute h2 => rw [h] at h2; cases h2
    | relative h2 hr2 ho2 hx2 =>
      rw [h] at h2; cases h2
      obtain rfl := Refers.unique hr hr2
      have := ih _ ho2
      subst this
      exact labVec_ext fun x => (hx x).trans (hx2 x).symm

theorem HasPos.unique {toM : V3 F → M3 F} {reg seq} {e : N} {p : V3 F} (h : HasPos toM reg seq e p) :
    ∀ p', HasPos toM reg seq e p' → p = p' := by
  induction h with
  | absolute h =>
    intro m' h'
    cases h' with
    | absolute h2 => rw [h] at h2; cases h2; rfl
    | relative h2 _ _ _ => rw [h] at h2; cases h2
  | relative h hr _ ho ih =>
    intro m' h'
    cases h' with
    | absolute h2 => rw [h] at h2; cases h2
    | relative h2 hr2 hp2 ho2 =>
      rw [h] at h2; cases h2
      obtain rfl := Refers.unique hr hr2
      rw [ih _ hp2, ho.unique _ ho2]

/-- the caches agree with the registry -/
def Consistent (toM : V3 F → M3 F) (g : Geo N F) : Prop :=
  (∀ e o, g.absori e = some o → HasOri toM g.reg g.seq e (o.matrix toM)) ∧
  (∀ e p, g.abspos e = some p → HasPos toM g.reg g.seq e p)

/-- a query result is right and the state stays consistent -/
structure Sound (toM : V3 F → M3 F) (g g' : Geo N F) : Prop where
  reg : g'.reg = g.reg
  seq : g'.seq = g.seq
  cons : Consistent toM g'

theorem orientation_sound (toM : V3 F → M3 F) : ∀ (fuel : Nat) (g : Geo N F) (e : N), Consistent toM g →
    Sound toM g (orientation toM fuel g e).2 ∧
    ∀ o, (orientation toM fuel g e).1 = .ok o → HasOri toM g.reg g.seq e (o.matrix toM) := by
  have store : ∀ (g : Geo N F) (e : N) (o : Ori F), Consistent toM g → HasOri toM g.reg g.seq e (o.matrix toM) →
      Consistent toM { g with absori := upd g.absori e o } := by
    intro g e o hc ho
    refine ⟨fun x o' h => ?_, hc.2⟩
    simp only [upd] at h
    split at h
    · next hx => injection h with h; subst h; rw [hx]; exact ho
    · exact hc.1 x o' h
  intro fuel
  induction fuel with
  | zero =>
    intro g e hc
    rw [orientation]
    split
    · next o ho => exact ⟨⟨rfl, rfl, hc⟩, fun o' h => by injection h with h; subst h; exact hc.1 e o ho⟩
    · exact ⟨⟨rfl, rfl, hc⟩, fun o' h => by cases h⟩
  | succ fuel ih =>
    intro g e hc
    rw [orientation]
    split
    · next o ho => exact ⟨⟨rfl, rfl, hc⟩, fun o' h => by injection h with h; subst h; exact hc.1 e o ho⟩
    · simp only
      split
      · exact ⟨⟨rfl, rfl, hc⟩, fun o' h => by cases h⟩
      · next p o hreg =>
        have ho : HasOri toM g.reg g.seq e (o.matrix toM) := .absolute hreg
        exact ⟨⟨rfl, rfl, store g e o hc ho⟩, fun o' h => by injection h with h; subst h; exact ho⟩
      · next p v tgt hreg =>
        split
        · exact ⟨⟨rfl, rfl, hc⟩, fun o' h => by cases h⟩
        · next ref href =>
          rw [findReference_iff] at href
          obtain ⟨⟨i1, i2, i3⟩, i4⟩ := ih g ref hc
          split
          · next er g' heq =>
            rw [heq] at i1 i2 i3
            exact ⟨⟨i1, i2, i3⟩, fun o' h => by cases h⟩
          · next o g' heq =>
            rw [heq] at i1 i2 i3 i4
            have ho : HasOri toM g.reg g.seq e ((v.matrix toM).mul (o.matrix toM)) :=
              .relative hreg href (i4 o rfl) (labVec_mul _ _)
            refine ⟨⟨i1, i2, ?_⟩, fun o' h => by injection h with h; subst h; exact ho⟩
            apply store g' e _ i3
            rw [i1, i2]; exact ho

theorem position_sound (toM : V3 F → M3 F) : ∀ (fuel : Nat) (g : Geo N F) (e : N), Consistent toM g →
    Sound toM g (position toM fuel g e).2 ∧
    ∀ p, (position toM fuel g e).1 = .ok p → HasPos toM g.reg g.seq e p := by
  have store : ∀ (g : Geo N F) (e : N) (p : V3 F), Consistent toM g → HasPos toM g.reg g.seq e p →
      Consistent toM { g with abspos := upd g.abspos e p } := by
    intro g e o hc ho
    refine ⟨hc.1, fun x o' h => ?_⟩
    simp only [upd] at h
    split at h
    · next hx => injection h with h; subst h; rw [hx]; exact ho
    · exact hc.2 x o' h
  intro fuel
  induction fuel with
  | zero =>
    intro g e hc
    rw [position]
    split
    · next o ho => exact ⟨⟨rfl, rfl, hc⟩, fun o' h => by injection h with h; subst h; exact hc.2 e o ho⟩
    · exact ⟨⟨rfl, rfl, hc⟩, fun o' h => by cases h⟩
  | succ fuel ih =>
    intro g e hc
    rw [position]
    split
    · next o ho => exact ⟨⟨rfl, rfl, hc⟩, fun o' h => by injection h with h; subst h; exact hc.2 e o ho⟩
    · simp only
      split
      · exact ⟨⟨rfl, rfl, hc⟩, fun o' h => by cases h⟩
      · next p o hreg =>
        have ho : HasPos toM g.reg g.seq e p := .absolute hreg
        exact ⟨⟨rfl, rfl, store g e p hc ho⟩, fun o' h => by injection h with h; subst h; exact ho⟩
      · next v tgt o hreg =>
        split
        · exact ⟨⟨rfl, rfl, hc⟩, fun o' h => by cases h⟩
        · next ref href =>
          rw [findReference_iff] at href
          obtain ⟨⟨i1, i2, i3⟩, i4⟩ := ih g ref hc
          split
          · next er g' heq =>
            rw [heq] at i1 i2 i3
            exact ⟨⟨i1, i2, i3⟩, fun o' h => by cases h⟩
          · next p g' heq =>
            rw [heq] at i1 i2 i3 i4
            obtain ⟨⟨j1, j2, j3⟩, j4⟩ := orientation_sound toM fuel g' ref i3
            split
            · next er g'' heq2 =>
              rw [heq2] at j1 j2 j3
              exact ⟨⟨j1.trans i1, j2.trans i2, j3⟩, fun o' h => by cases h⟩
            · next ro g'' heq2 =>
              rw [heq2] at j1 j2 j3 j4
              simp only at i1 i2 j1 j2
              have hro := j4 ro rfl
              rw [i1, i2] at hro
              have ho : HasPos toM g.reg g.seq e (p + (ro.matrix toM).transpose.mulVec v) := by
                rw [transpose_mulVec]
                exact .relative hreg href (i4 p rfl) hro
              refine ⟨⟨j1.trans i1, j2.trans i2, ?_⟩, fun o' h => by injection h with h; subst h; exact ho⟩
              apply store g'' e _ j3
              rw [j1, j2, i1, i2]; exact ho

theorem orientation_complete (toM : V3 F → M3 F) {reg seq} {e : N} {m : M3 F} (h : HasOri toM reg seq e m) :
    ∃ L, ∀ fuel ≥ L, ∀ g : Geo N F, g.reg = reg → g.seq = seq → Consistent toM g →
      ∃ o, (orientation toM fuel g e).1 = .ok o := by
  induction h with
  | @absolute e p o h =>
    refine ⟨1, fun fuel hf g hr hs hc => ?_⟩
    cases fuel with
    | zero => omega
    | succ fuel =>
      rw [orientation]
      split
      · exact ⟨_, rfl⟩
      · simp only [hr, h]; exact ⟨_, rfl⟩
  | @relative e p v tgt r m m' h hrf _ _ ih =>
    obtain ⟨L, hL⟩ := ih
    refine ⟨L + 1, fun fuel hf g hr hs hc => ?_⟩
    cases fuel with
    | zero => omega
    | succ fuel =>
      rw [orientation]
      split
      · exact ⟨_, rfl⟩
      · have hfr : findReference g tgt e = .ok r := by rw [findReference_iff, hs]; exact hrf
        obtain ⟨o, ho⟩ := hL fuel (by omega) g hr hs hc
        simp only [hr, h, hfr]
        generalize heq : orientation toM fuel g r = x at ho
        obtain ⟨y, g'⟩ := x
        simp only at ho
        subst ho
        exact ⟨_, rfl⟩

theorem position_complete (toM : V3 F → M3 F) {reg seq} {e : N} {p : V3 F} (h : HasPos toM reg seq e p) :
    ∃ L, ∀ fuel ≥ L, ∀ g : Geo N F, g.reg = reg → g.seq = seq → Consistent toM g →
      ∃ o, (position toM fuel g e).1 = .ok o := by
  induction h with
  | @absolute e p o h =>
    refine ⟨1, fun fuel hf g hr hs hc => ?_⟩
    cases fuel with
    | zero => omega
    | succ fuel =>
      rw [position]
      split
      · exact ⟨_, rfl⟩
      · simp only [hr, h]; exact ⟨_, rfl⟩
  | @relative e v tgt o r p m h hrf _ ho ih =>
    obtain ⟨L, hL⟩ := ih
    obtain ⟨L', hL'⟩ := orientation_complete toM ho
    refine ⟨L + L' + 1, fun fuel hf g hr hs hc => ?_⟩
    cases fuel with
    | zero => omega
    | succ fuel =>
      rw [position]
      split
      · exact ⟨_, rfl⟩
      · have hfr : findReference g tgt e = .ok r := by rw [findReference_iff, hs]; exact hrf
        obtain ⟨p', hp'⟩ := hL fuel (by omega) g hr hs hc
        obtain ⟨⟨s1, s2, s3⟩, -⟩ := position_sound toM fuel g r hc
        simp only [hr, h, hfr]
        generalize heq : position toM fuel g r = x at hp' s1 s2 s3
        obtain ⟨y, g'⟩ := x
        simp only at hp' s1 s2 s3
        subst hp'
        obtain ⟨o', ho'⟩ := hL' fuel (by omega) g' (s1.trans hr) (s2.trans hs) s3
        simp only
        generalize heq2 : orientation toM fuel g' r = x2 at ho'
        obtain ⟨y2, g''⟩ := x2
        simp only at ho'
        subst ho'
        exact ⟨_, rfl⟩

/-! ### Registration of new elements -/

omit [DecidableEq N] in
theorem HasOri.mono {toM : V3 F → M3 F} {reg reg' : N → Option (Coord (V3 F) N × Coord (Ori F) N)} {seq}
    (hsub : ∀ e r, reg e = some r → reg' e = some r) {e : N} {m : M3 F} (h : HasOri toM reg seq e m) :
    HasOri toM reg' seq e m := by
  induction h with
  | absolute h => exact .absolute (hsub _ _ h)
  | relative h hr _ hx ih => exact .relative (hsub _ _ h) hr ih hx

omit [DecidableEq N] in
theorem HasPos.mono {toM : V3 F → M3 F} {reg reg' : N → Option (Coord (V3 F) N × Coord (Ori F) N)} {seq}
    (hsub : ∀ e r, reg e = some r → reg' e = some r) {e : N} {p : V3 F} (h : HasPos toM reg seq e p) :
    HasPos toM reg' seq e p := by
  induction h with
  | absolute h => exact .absolute (hsub _ _ h)
  | relative h hr _ ho ih => exact .relative (hsub _ _ h) hr ih (ho.mono hsub)

theorem consistent_register {toM : V3 F → M3 F} {g : Geo N F} {e : N} (p : Coord (V3 F) N) (o : Coord (Ori F) N)
    (hnew : g.reg e = none) (hc : Consistent toM g) : Consistent toM (register g e p o) := by
  have hsub : ∀ x r, g.reg x = some r → (register g e p o).reg x = some r := by
    intro x r h
    simp only [register, upd]
    split
    · next hx => rw [hx, hnew] at h; cases h
    · exact h
  exact ⟨fun x o' h => (hc.1 x o' h).mono hsub, fun x p' h => (hc.2 x p' h).mono hsub⟩

omit [DecidableEq N] in
theorem consistent_empty (toM : V3 F → M3 F) (seq : Option (List N)) : Consistent toM (empty seq : Geo N F) :=
  ⟨fun _ _ h => by simp [empty] at h, fun _ _ h => by simp [empty] at h⟩

end Verif.Geometer
