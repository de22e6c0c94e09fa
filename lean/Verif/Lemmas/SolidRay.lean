import Verif.Lemmas.SolidLocate
/-!
Helper lemmas: flight paths through the primitive solids.
-/

namespace Verif.Solid

theorem at_x (p v : V3 ℝ) (t : ℝ) : (at' p v t).x = p.x + t * v.x := rfl
theorem at_y (p v : V3 ℝ) (t : ℝ) : (at' p v t).y = p.y + t * v.y := rfl
theorem at_z (p v : V3 ℝ) (t : ℝ) : (at' p v t).z = p.z + t * v.z := rfl

theorem catches_interval {s : Shape} {p v : V3 ℝ} {a b : ℝ}
    (h : ∀ t, Mem s (at' p v t) ↔ a ≤ t ∧ t ≤ b) : CatchesAll s p v [a, b] := by
  intro t0 t1 h01 hc
  simp only [Changes, h] at hc
  simp only [List.mem_cons, List.not_mem_nil, or_false, exists_eq_or_imp, exists_eq_left]
  by_contra hn
  simp only [not_or, not_and, not_le] at hn
  apply hc
  constructor
  · rintro ⟨h1, h2⟩
    refine ⟨by linarith, ?_⟩
    by_contra h3
    have := hn.2 h2
    linarith
  · rintro ⟨h1, h2⟩
    refine ⟨?_, by linarith⟩
    by_contra h3
    have := hn.1 (by linarith)
    linarith

theorem catches_misses {s : Shape} {p v : V3 ℝ} {ts : List ℝ} (h : Misses s p v) :
    CatchesAll s p v ts := by
  intro t0 t1 _ hc
  exact absurd (⟨fun h' => absurd h' (h t0), fun h' => absurd h' (h t1)⟩) hc

theorem pair_cases {ts : List ℝ} {a b : ℝ} (hl : ts.length = 2) (ha : a ∈ ts) (hb : b ∈ ts)
    (h : a < b) : ts = [a, b] ∨ ts = [b, a] := by
  match ts, hl with
  | [x, y], _ =>
    simp only [List.mem_cons, List.not_mem_nil, or_false] at ha hb
    rcases ha with rfl | rfl <;> rcases hb with rfl | rfl
    · exact absurd h (lt_irrefl _)
    · exact .inl rfl
    · exact .inr rfl
    · exact absurd h (lt_irrefl _)

theorem orderedPair_lt {a b : ℝ} (h : a < b) : orderedPair a b = [a, b] ∧ orderedPair b a = [a, b] := by
  simp [orderedPair, h, not_lt.2 h.le]

/-- a linear function strictly between bounds at `u` and weakly at `t` is strictly between
bounds in between -/
theorem abs_between {x v A t s u : ℝ} (h1 : |x + t * v| ≤ A) (h2 : |x + u * v| < A)
    (hs : (t < s ∧ s ≤ u) ∨ (u ≤ s ∧ s < t)) : |x + s * v| < A := by
  rw [abs_le] at h1
  rw [abs_lt] at h2 ⊢
  have key : ∀ w : ℝ, (t < s ∧ s ≤ u) ∨ (u ≤ s ∧ s < t) → x + t * w ≤ A → x + u * w < A →
      x + s * w < A := by
    intro w hs h1 h2
    rcases hs with ⟨a, b⟩ | ⟨a, b⟩
    · rcases le_total 0 w with hw | hw
      · nlinarith
      · have hpos : 0 < u - t := by linarith
        have : (x + s * w) * (u - t) = (x + t * w) * (u - s) + (x + u * w) * (s - t) := by ring
        have h3 : (x + t * w) * (u - s) ≤ A * (u - s) := mul_le_mul_of_nonneg_right h1 (by linarith)
        have h4 : (x + u * w) * (s - t) < A * (s - t) := mul_lt_mul_of_pos_right h2 (by linarith)
        have : (x + s * w) * (u - t) < A * (u - t) := by linarith
        exact lt_of_mul_lt_mul_right this hpos.le
    · have hpos : 0 < t - u := by linarith
      have : (x + s * w) * (t - u) = (x + t * w) * (s - u) + (x + u * w) * (t - s) := by ring
      have h3 : (x + t * w) * (s - u) ≤ A * (s - u) := mul_le_mul_of_nonneg_right h1 (by linarith)
      have h4 : (x + u * w) * (t - s) < A * (t - s) := mul_lt_mul_of_pos_right h2 (by linarith)
      have : (x + s * w) * (t - u) < A * (t - u) := by linarith
      exact lt_of_mul_lt_mul_right this hpos.le
  have hneg : ∀ r, -(x + r * v) = -x + r * -v := fun r => by ring
  refine ⟨?_, key v hs h1.2 h2.2⟩
  -- the lower bound by the same argument for the negative function
  have hpos : (t < s ∧ s ≤ u) ∨ (u ≤ s ∧ s < t) := hs
  rcases hpos with ⟨a, b⟩ | ⟨a, b⟩
  · have : (x + s * v) * (u - t) = (x + t * v) * (u - s) + (x + u * v) * (s - t) := by ring
    have h3 : -A * (u - s) ≤ (x + t * v) * (u - s) := mul_le_mul_of_nonneg_right h1.1 (by linarith)
    have h4 : -A * (s - t) < (x + u * v) * (s - t) := mul_lt_mul_of_pos_right h2.1 (by linarith)
    have : -A * (u - t) < (x + s * v) * (u - t) := by linarith
    exact lt_of_mul_lt_mul_right this (by linarith)
  · have : (x + s * v) * (t - u) = (x + t * v) * (s - u) + (x + u * v) * (t - s) := by ring
    have h3 : -A * (s - u) ≤ (x + t * v) * (s - u) := mul_le_mul_of_nonneg_right h1.1 (by linarith)
    have h4 : -A * (t - s) < (x + u * v) * (t - s) := mul_lt_mul_of_pos_right h2.1 (by linarith)
    have : -A * (t - u) < (x + s * v) * (t - u) := by linarith
    exact lt_of_mul_lt_mul_right this (by linarith)

/-! ### the last entry before a time of strict membership -/

/-- going back from `u`, either `S` holds for ever or there is a last time with `B` -/
def Entry (C S B : ℝ → Prop) (u : ℝ) : Prop :=
  (∀ t, t ≤ u → S t) ∨ ∃ l < u, B l ∧ C l ∧ ∀ t, l < t → t ≤ u → S t

theorem Entry.and {C S B C' S' B' : ℝ → Prop} {u : ℝ} (hSC : ∀ t, S t → C t)
    (hSC' : ∀ t, S' t → C' t) (h : Entry C S B u) (h' : Entry C' S' B' u) :
    Entry (fun t => C t ∧ C' t) (fun t => S t ∧ S' t) (fun t => B t ∨ B' t) u := by
  rcases h with h | ⟨l, hl, hB, hC, hS⟩
  · rcases h' with h' | ⟨l', hl', hB', hC', hS'⟩
    · exact .inl fun t ht => ⟨h t ht, h' t ht⟩
    · exact .inr ⟨l', hl', .inr hB', ⟨hSC _ (h _ hl'.le), hC'⟩, fun t h1 h2 => ⟨h t h2, hS' t h1 h2⟩⟩
  · rcases h' with h' | ⟨l', hl', hB', hC', hS'⟩
    · exact .inr ⟨l, hl, .inl hB, ⟨hC, hSC' _ (h' _ hl.le)⟩, fun t h1 h2 => ⟨hS t h1 h2, h' t h2⟩⟩
    · rcases lt_trichotomy l l' with hlt | rfl | hlt
      · exact .inr ⟨l', hl', .inr hB', ⟨hSC _ (hS _ hlt hl'.le), hC'⟩,
          fun t h1 h2 => ⟨hS t (hlt.trans h1) h2, hS' t h1 h2⟩⟩
      · exact .inr ⟨l, hl, .inl hB, ⟨hC, hC'⟩, fun t h1 h2 => ⟨hS t h1 h2, hS' t h1 h2⟩⟩
      · exact .inr ⟨l, hl, .inl hB, ⟨hC, hSC' _ (hS' _ hlt hl.le)⟩,
          fun t h1 h2 => ⟨hS t h1 h2, hS' t (hlt.trans h1) h2⟩⟩

/-- entry into a slab -/
theorem entry_slab {x v A u : ℝ} (h : |x + u * v| < A) :
    Entry (fun t => |x + t * v| ≤ A) (fun t => |x + t * v| < A) (fun t => |x + t * v| = A) u := by
  have hA : 0 < A := (abs_nonneg _).trans_lt h
  rcases lt_trichotomy v 0 with hv | hv | hv
  · right
    have e : x + (A - x) / v * v = A := by rw [div_mul_cancel₀ _ hv.ne]; ring
    have hl : (A - x) / v < u := by
      rw [div_lt_iff_of_neg hv]; linarith [(abs_lt.1 h).2]
    have hB : |x + (A - x) / v * v| = A := by rw [e, abs_of_pos hA]
    exact ⟨_, hl, hB, hB.le, fun t h1 h2 => abs_between hB.le h (.inl ⟨h1, h2⟩)⟩
  · left
    intro t _
    subst hv
    simpa using h
  · right
    have e : x + (-A - x) / v * v = -A := by rw [div_mul_cancel₀ _ hv.ne']; ring
    have hl : (-A - x) / v < u := by
      rw [div_lt_iff₀ hv]; linarith [(abs_lt.1 h).1]
    have hB : |x + (-A - x) / v * v| = A := by rw [e, abs_neg, abs_of_pos hA]
    exact ⟨_, hl, hB, hB.le, fun t h1 h2 => abs_between hB.le h (.inl ⟨h1, h2⟩)⟩

/-! ### the box -/

theorem box_strict {X Y Z : ℝ} {p : V3 ℝ} (h : Interior (Mem (.box X Y Z)) p) :
    |p.x| < X / 2 ∧ |p.y| < Y / 2 ∧ |p.z| < Z / 2 := by
  obtain ⟨δ, hδ, h⟩ := h
  have key : ∀ a A : ℝ, |a + δ / 2| ≤ A → |a - δ / 2| ≤ A → |a| < A := by
    intro a A h1 h2
    rw [abs_le] at h1 h2
    rw [abs_lt]
    constructor <;> linarith [h1.1, h1.2, h2.1, h2.2]
  have hd : |δ / 2| < δ := by rw [abs_of_pos (by linarith)]; linarith
  have hd' : |-(δ / 2)| < δ := by rw [abs_neg]; exact hd
  have n1 := h ⟨p.x + δ / 2, p.y, p.z⟩ ⟨by simpa using hd, by simpa using hδ, by simpa using hδ⟩
  have n2 := h ⟨p.x - δ / 2, p.y, p.z⟩ ⟨by simpa using hd, by simpa using hδ, by simpa using hδ⟩
  have n3 := h ⟨p.x, p.y + δ / 2, p.z⟩ ⟨by simpa using hδ, by simpa using hd, by simpa using hδ⟩
  have n4 := h ⟨p.x, p.y - δ / 2, p.z⟩ ⟨by simpa using hδ, by simpa using hd, by simpa using hδ⟩
  have n5 := h ⟨p.x, p.y, p.z + δ / 2⟩ ⟨by simpa using hδ, by simpa using hδ, by simpa using hd⟩
  have n6 := h ⟨p.x, p.y, p.z - δ / 2⟩ ⟨by simpa using hδ, by simpa using hδ, by simpa using hd⟩
  simp only [Mem] at n1 n2 n3 n4 n5 n6
  exact ⟨key _ _ n1.1 n2.1, key _ _ n3.2.1 n4.2.1, key _ _ n5.2.2 n6.2.2⟩

/-- the two rectangles of one axis, `ArrowIntersector.cc:243-254` -/
noncomputable def axisTimes (y z x vy vz vx Y Z X : ℝ) : List ℝ :=
  open Classical in
  if vx ≠ 0 then
    intersectRectangle y z (x - X / 2) vy vz vx Y Z ++ intersectRectangle y z (x + X / 2) vy vz vx Y Z
  else []

theorem axisTimes_spec (y z x vy vz vx Y Z X u : ℝ) (hu : |x + u * vx| < X / 2) :
    let Q := fun t : ℝ => |y + t * vy| < Y / 2 ∧ |z + t * vz| < Z / 2
    let L := axisTimes y z x vy vz vx Y Z X
    ∃ e f : Nat, L.length = e + f ∧
      (e = 0 ∧ (¬ ∃ t < u, |x + t * vx| = X / 2 ∧ Q t) ∨
       e = 1 ∧ ∃ t < u, |x + t * vx| = X / 2 ∧ Q t) ∧
      (f = 0 ∧ (¬ ∃ t > u, |x + t * vx| = X / 2 ∧ Q t) ∨
       f = 1 ∧ ∃ t > u, |x + t * vx| = X / 2 ∧ Q t) ∧
      ∀ t, t ∈ L ↔ (|x + t * vx| = X / 2 ∧ Q t) := by
  intro Q L
  have hX : 0 < X / 2 := (abs_nonneg _).trans_lt hu
  by_cases hv : vx = 0
  · subst hv
    have hno : ∀ t, ¬ |x + t * 0| = X / 2 := by
      intro t ht
      simp only [mul_zero] at ht hu
      linarith
    refine ⟨0, 0, by simp [L, axisTimes], .inl ⟨rfl, ?_⟩, .inl ⟨rfl, ?_⟩, ?_⟩
    · rintro ⟨t, _, h, _⟩; exact hno t h
    · rintro ⟨t, _, h, _⟩; exact hno t h
    · intro t
      simp only [L, axisTimes, ne_eq, not_true_eq_false, if_false, List.not_mem_nil, false_iff]
      exact fun h => hno t h.1
  · have hroot : ∀ t, |x + t * vx| = X / 2 ↔ t = (0 - (x - X / 2)) / vx ∨ t = (0 - (x + X / 2)) / vx := by
      intro t
      rw [abs_eq hX.le, eq_div_iff hv, eq_div_iff hv]
      constructor
      · rintro (h | h)
        · left; linarith
        · right; linarith
      · rintro (h | h)
        · left; linarith
        · right; linarith
    have hL : L = (if Q ((0 - (x - X / 2)) / vx) then [(0 - (x - X / 2)) / vx] else []) ++
        (if Q ((0 - (x + X / 2)) / vx) then [(0 - (x + X / 2)) / vx] else []) := by
      simp only [L, axisTimes, ne_eq, hv, not_false_eq_true, if_true, intersectRectangle, Q]
      simp only [mul_comm vy, mul_comm vz]
    have hmem : ∀ t, t ∈ L ↔ (|x + t * vx| = X / 2 ∧ Q t) := by
      intro t
      rw [hL, hroot, List.mem_append]
      by_cases h1 : Q ((0 - (x - X / 2)) / vx) <;> by_cases h2 : Q ((0 - (x + X / 2)) / vx) <;>
        simp only [h1, h2, if_true, if_false, List.mem_singleton, List.not_mem_nil, or_false,
          false_or]
      · constructor
        · rintro (rfl | rfl)
          · exact ⟨.inl rfl, h1⟩
          · exact ⟨.inr rfl, h2⟩
        · exact fun h => h.1
      · constructor
        · rintro rfl; exact ⟨.inl rfl, h1⟩
        · rintro ⟨rfl | rfl, h⟩
          · rfl
          · exact absurd h h2
      · constructor
        · rintro rfl; exact ⟨.inr rfl, h2⟩
        · rintro ⟨rfl | rfl, h⟩
          · exact absurd h h1
          · rfl
      · constructor
        · exact False.elim
        · rintro ⟨rfl | rfl, h⟩
          · exact absurd h h1
          · exact absurd h h2
    rcases lt_or_gt_of_ne hv with hneg | hpos
    · -- first root is the entry
      have h1 : (0 - (x - X / 2)) / vx < u := by
        rw [div_lt_iff_of_neg hneg]; linarith [(abs_lt.1 hu).2]
      have h2 : u < (0 - (x + X / 2)) / vx := by
        rw [lt_div_iff_of_neg hneg]; linarith [(abs_lt.1 hu).1]
      have he : (∃ t < u, |x + t * vx| = X / 2 ∧ Q t) ↔ Q ((0 - (x - X / 2)) / vx) := by
        constructor
        · rintro ⟨t, ht, hr, hq⟩
          rcases (hroot t).1 hr with rfl | rfl
          · exact hq
          · exact absurd ht (not_lt.2 h2.le)
        · exact fun h => ⟨_, h1, (hroot _).2 (.inl rfl), h⟩
      have hf : (∃ t > u, |x + t * vx| = X / 2 ∧ Q t) ↔ Q ((0 - (x + X / 2)) / vx) := by
        constructor
        · rintro ⟨t, ht, hr, hq⟩
          rcases (hroot t).1 hr with rfl | rfl
          · exact absurd ht (not_lt.2 h1.le)
          · exact hq
        · exact fun h => ⟨_, h2, (hroot _).2 (.inr rfl), h⟩
      rw [he, hf]
      refine ⟨if Q ((0 - (x - X / 2)) / vx) then 1 else 0, if Q ((0 - (x + X / 2)) / vx) then 1 else 0,
        ?_, ?_, ?_, hmem⟩
      · rw [hL, List.length_append]; congr 1 <;> split <;> rfl
      · split
        · exact .inr ⟨rfl, by assumption⟩
        · exact .inl ⟨rfl, by assumption⟩
      · split
        · exact .inr ⟨rfl, by assumption⟩
        · exact .inl ⟨rfl, by assumption⟩
    · have h1 : u < (0 - (x - X / 2)) / vx := by
        rw [lt_div_iff₀ hpos]; linarith [(abs_lt.1 hu).2]
      have h2 : (0 - (x + X / 2)) / vx < u := by
        rw [div_lt_iff₀ hpos]; linarith [(abs_lt.1 hu).1]
      have he : (∃ t < u, |x + t * vx| = X / 2 ∧ Q t) ↔ Q ((0 - (x + X / 2)) / vx) := by
        constructor
        · rintro ⟨t, ht, hr, hq⟩
          rcases (hroot t).1 hr with rfl | rfl
          · exact absurd ht (not_lt.2 h1.le)
          · exact hq
        · exact fun h => ⟨_, h2, (hroot _).2 (.inr rfl), h⟩
      have hf : (∃ t > u, |x + t * vx| = X / 2 ∧ Q t) ↔ Q ((0 - (x - X / 2)) / vx) := by
        constructor
        · rintro ⟨t, ht, hr, hq⟩
          rcases (hroot t).1 hr with rfl | rfl
          · exact hq
          · exact absurd ht (not_lt.2 h2.le)
        · exact fun h => ⟨_, h1, (hroot _).2 (.inl rfl), h⟩
      rw [he, hf]
      refine ⟨if Q ((0 - (x + X / 2)) / vx) then 1 else 0, if Q ((0 - (x - X / 2)) / vx) then 1 else 0,
        ?_, ?_, ?_, hmem⟩
      · rw [hL, List.length_append, add_comm]; congr 1 <;> split <;> rfl
      · split
        · exact .inr ⟨rfl, by assumption⟩
        · exact .inl ⟨rfl, by assumption⟩
      · split
        · exact .inr ⟨rfl, by assumption⟩
        · exact .inl ⟨rfl, by assumption⟩

theorem intersectBox_eq (X Y Z : ℝ) (p v : V3 ℝ) (hv : isInvalidDirection v = false) :
    intersectBox X Y Z p v =
      (match axisTimes p.x p.y p.z v.x v.y v.z X Y Z ++ axisTimes p.y p.z p.x v.y v.z v.x Y Z X ++
          axisTimes p.z p.x p.y v.z v.x v.y Z X Y with
       | [a, b] => orderedPair a b
       | _ => []) := by
  unfold intersectBox axisTimes
  rw [if_neg (by simp [hv])]
  rfl

/-- exactly one of three -/
private theorem one_of_three {ex ey ez : Nat} {Px Py Pz : Prop}
    (hx : ex = 0 ∧ ¬Px ∨ ex = 1 ∧ Px) (hy : ey = 0 ∧ ¬Py ∨ ey = 1 ∧ Py)
    (hz : ez = 0 ∧ ¬Pz ∨ ez = 1 ∧ Pz) (hex : Px ∨ Py ∨ Pz) (h1 : ¬ (Px ∧ Py)) (h2 : ¬ (Py ∧ Pz))
    (h3 : ¬ (Pz ∧ Px)) : ex + ey + ez = 1 := by
  rcases hx with ⟨rfl, hx⟩ | ⟨rfl, hx⟩ <;> rcases hy with ⟨rfl, hy⟩ | ⟨rfl, hy⟩ <;>
    rcases hz with ⟨rfl, hz⟩ | ⟨rfl, hz⟩ <;> simp_all

/-- two different faces cannot both be the entry -/
private theorem not_both {x v A y w B u t s : ℝ} (hxu : |x + u * v| < A) (hyu : |y + u * w| < B)
    (hxt : |x + t * v| = A) (hyt : |y + t * w| < B) (hys : |y + s * w| = B) (hxs : |x + s * v| < A)
    (hts : (t < u ∧ s < u) ∨ (u < t ∧ u < s)) : False := by
  rcases lt_trichotomy t s with h | rfl | h
  · rcases hts with ⟨h1, h2⟩ | ⟨h1, h2⟩
    · exact absurd hys (ne_of_lt (abs_between hyt.le hyu (.inl ⟨h, h2.le⟩)))
    · exact absurd hxt (ne_of_lt (abs_between hxs.le hxu (.inr ⟨h1.le, h⟩)))
  · exact absurd hxt (ne_of_lt hxs)
  · rcases hts with ⟨h1, h2⟩ | ⟨h1, h2⟩
    · exact absurd hxt (ne_of_lt (abs_between hxs.le hxu (.inl ⟨h, h1.le⟩)))
    · exact absurd hys (ne_of_lt (abs_between hyt.le hyu (.inr ⟨h2.le, h⟩)))

theorem intersectBox_pierces {X Y Z : ℝ} {p v : V3 ℝ} (hv : isInvalidDirection v = false)
    (hp : Pierces (.box X Y Z) p v) (ha : AvoidsEdges X Y Z p v) :
    ∃ a b, a < b ∧ intersectBox X Y Z p v = [a, b] ∧
      ∀ t, Mem (.box X Y Z) (at' p v t) ↔ a ≤ t ∧ t ≤ b := by
  obtain ⟨u, hu⟩ := hp
  obtain ⟨hux, huy, huz⟩ := box_strict hu
  rw [at_x] at hux
  rw [at_y] at huy
  rw [at_z] at huz
  simp only [AvoidsEdges, Mem, at_x, at_y, at_z] at ha
  have hne : ¬ (v.x = 0 ∧ v.y = 0 ∧ v.z = 0) := by
    simpa [isInvalidDirection] using hv
  -- the entry
  have hE := ((entry_slab hux).and (fun t h => le_of_lt h) (fun t h => le_of_lt h)
    (entry_slab huy)).and (fun t h => ⟨le_of_lt h.1, le_of_lt h.2⟩) (fun t h => le_of_lt h)
    (entry_slab huz)
  have unb : ∀ x w A : ℝ, w ≠ 0 → ¬ ∀ t, t ≤ u → |x + t * w| < A := by
    intro x w A hw h
    have hA : 0 < A := (abs_nonneg _).trans_lt (h u le_rfl)
    have h0 := h u le_rfl
    have h1 := h (u - 2 * A / |w|) (by
      have : 0 < 2 * A / |w| := div_pos (by linarith) (abs_pos.2 hw)
      linarith)
    rw [abs_lt] at h0 h1
    rcases lt_or_gt_of_ne hw with hn | hn
    · rw [abs_of_neg hn] at h1
      have e : x + (u - 2 * A / -w) * w = x + u * w + 2 * A := by field_simp; ring
      rw [e] at h1; linarith
    · rw [abs_of_pos hn] at h1
      have e : x + (u - 2 * A / w) * w = x + u * w - 2 * A := by field_simp; ring
      rw [e] at h1; linarith
  have unb' : ∀ x w A : ℝ, w ≠ 0 → ¬ ∀ t, t ≤ -u → |x + t * -w| < A := by
    intro x w A hw h
    have hA : 0 < A := (abs_nonneg _).trans_lt (h _ le_rfl)
    have h0 := h (-u) le_rfl
    have h1 := h (-u - 2 * A / |w|) (by
      have : 0 < 2 * A / |w| := div_pos (by linarith) (abs_pos.2 hw)
      linarith)
    rw [abs_lt] at h0 h1
    rcases lt_or_gt_of_ne hw with hn | hn
    · rw [abs_of_neg hn] at h1
      have e : x + (-u - 2 * A / -w) * -w = x + -u * -w - 2 * A := by field_simp; ring
      rw [e] at h1; linarith
    · rw [abs_of_pos hn] at h1
      have e : x + (-u - 2 * A / w) * -w = x + -u * -w + 2 * A := by field_simp; ring
      rw [e] at h1; linarith
  have hE' : ∃ lo < u, ((|p.x + lo * v.x| = X / 2 ∨ |p.y + lo * v.y| = Y / 2) ∨
      |p.z + lo * v.z| = Z / 2) ∧ (|p.x + lo * v.x| ≤ X / 2 ∧ |p.y + lo * v.y| ≤ Y / 2) ∧
      |p.z + lo * v.z| ≤ Z / 2 := by
    rcases hE with h | ⟨lo, hlo, hB, hC, _⟩
    · exfalso
      by_cases hx : v.x = 0
      · by_cases hy : v.y = 0
        · have hz : v.z ≠ 0 := fun hz => hne ⟨hx, hy, hz⟩
          exact unb _ _ _ hz fun t ht => (h t ht).2
        · exact unb _ _ _ hy fun t ht => (h t ht).1.2
      · exact unb _ _ _ hx fun t ht => (h t ht).1.1
    · exact ⟨lo, hlo, hB, hC⟩
  -- the exit
  have rev : ∀ x w : ℝ, x + -u * -w = x + u * w := fun x w => by ring
  have hF := ((entry_slab (x := p.x) (v := -v.x) (A := X / 2) (u := -u) (by rw [rev]; exact hux)).and
    (fun t h => le_of_lt h) (fun t h => le_of_lt h)
    (entry_slab (x := p.y) (v := -v.y) (A := Y / 2) (u := -u) (by rw [rev]; exact huy))).and
    (fun t h => ⟨le_of_lt h.1, le_of_lt h.2⟩) (fun t h => le_of_lt h)
    (entry_slab (x := p.z) (v := -v.z) (A := Z / 2) (u := -u) (by rw [rev]; exact huz))
  have hF' : ∃ hi > u, ((|p.x + hi * v.x| = X / 2 ∨ |p.y + hi * v.y| = Y / 2) ∨
      |p.z + hi * v.z| = Z / 2) ∧ (|p.x + hi * v.x| ≤ X / 2 ∧ |p.y + hi * v.y| ≤ Y / 2) ∧
      |p.z + hi * v.z| ≤ Z / 2 := by
    rcases hF with h | ⟨lo, hlo, hB, hC, _⟩
    · exfalso
      by_cases hx : v.x = 0
      · by_cases hy : v.y = 0
        · have hz : v.z ≠ 0 := fun hz => hne ⟨hx, hy, hz⟩
          exact unb' _ _ _ hz fun t ht => (h t ht).2
        · exact unb' _ _ _ hy fun t ht => (h t ht).1.2
      · exact unb' _ _ _ hx fun t ht => (h t ht).1.1
    · refine ⟨-lo, by linarith, ?_⟩
      have rv : ∀ x w : ℝ, x + -lo * w = x + lo * -w := fun x w => by ring
      simp only [rv]
      exact ⟨hB, hC⟩
  -- the lists
  obtain ⟨ez, fz, lz, hez, hfz, mz⟩ :=
    axisTimes_spec p.x p.y p.z v.x v.y v.z X Y Z u huz
  obtain ⟨ex, fx, lx, hex, hfx, mx⟩ :=
    axisTimes_spec p.y p.z p.x v.y v.z v.x Y Z X u hux
  obtain ⟨ey, fy, ly, hey, hfy, my⟩ :=
    axisTimes_spec p.z p.x p.y v.z v.x v.y Z X Y u huy
  obtain ⟨lo, hlo, hloB, ⟨hlox, hloy⟩, hloz⟩ := hE'
  obtain ⟨hi, hhi, hhiB, ⟨hhix, hhiy⟩, hhiz⟩ := hF'
  have edges := fun t h => ha t h
  -- the strict coordinates at a face
  have strict : ∀ t, |p.x + t * v.x| ≤ X / 2 → |p.y + t * v.y| ≤ Y / 2 → |p.z + t * v.z| ≤ Z / 2 →
      ((|p.x + t * v.x| = X / 2 ∨ |p.y + t * v.y| = Y / 2) ∨ |p.z + t * v.z| = Z / 2) →
      (|p.x + t * v.x| = X / 2 ∧ |p.y + t * v.y| < Y / 2 ∧ |p.z + t * v.z| < Z / 2) ∨
      (|p.y + t * v.y| = Y / 2 ∧ |p.z + t * v.z| < Z / 2 ∧ |p.x + t * v.x| < X / 2) ∨
      (|p.z + t * v.z| = Z / 2 ∧ |p.x + t * v.x| < X / 2 ∧ |p.y + t * v.y| < Y / 2) := by
    intro t h1 h2 h3 hB
    obtain ⟨n1, n2, n3⟩ := edges t ⟨h1, h2, h3⟩
    rcases hB with (hB | hB) | hB
    · exact .inl ⟨hB, lt_of_le_of_ne h2 fun h => n1 ⟨hB, h⟩, lt_of_le_of_ne h3 fun h => n3 ⟨h, hB⟩⟩
    · exact .inr (.inl ⟨hB, lt_of_le_of_ne h3 fun h => n2 ⟨hB, h⟩,
        lt_of_le_of_ne h1 fun h => n1 ⟨h, hB⟩⟩)
    · exact .inr (.inr ⟨hB, lt_of_le_of_ne h1 fun h => n3 ⟨hB, h⟩,
        lt_of_le_of_ne h2 fun h => n2 ⟨h, hB⟩⟩)
  have slo := strict lo hlox hloy hloz hloB
  have shi := strict hi hhix hhiy hhiz hhiB
  have hE1 : ex + ey + ez = 1 := by
    refine one_of_three hex hey hez ?_ ?_ ?_ ?_
    · rcases slo with h | h | h
      · exact .inl ⟨lo, hlo, h.1, h.2⟩
      · exact .inr (.inl ⟨lo, hlo, h.1, h.2⟩)
      · exact .inr (.inr ⟨lo, hlo, h.1, h.2⟩)
    · rintro ⟨⟨t, ht, b, q1, q2⟩, ⟨s, hs, b', q1', q2'⟩⟩
      exact not_both hux huy b q1 b' q2' (.inl ⟨ht, hs⟩)
    · rintro ⟨⟨t, ht, b, q1, q2⟩, ⟨s, hs, b', q1', q2'⟩⟩
      exact not_both huy huz b q1 b' q2' (.inl ⟨ht, hs⟩)
    · rintro ⟨⟨t, ht, b, q1, q2⟩, ⟨s, hs, b', q1', q2'⟩⟩
      exact not_both huz hux b q1 b' q2' (.inl ⟨ht, hs⟩)
  have hF1 : fx + fy + fz = 1 := by
    refine one_of_three hfx hfy hfz ?_ ?_ ?_ ?_
    · rcases shi with h | h | h
      · exact .inl ⟨hi, hhi, h.1, h.2⟩
      · exact .inr (.inl ⟨hi, hhi, h.1, h.2⟩)
      · exact .inr (.inr ⟨hi, hhi, h.1, h.2⟩)
    · rintro ⟨⟨t, ht, b, q1, q2⟩, ⟨s, hs, b', q1', q2'⟩⟩
      exact not_both hux huy b q1 b' q2' (.inr ⟨ht, hs⟩)
    · rintro ⟨⟨t, ht, b, q1, q2⟩, ⟨s, hs, b', q1', q2'⟩⟩
      exact not_both huy huz b q1 b' q2' (.inr ⟨ht, hs⟩)
    · rintro ⟨⟨t, ht, b, q1, q2⟩, ⟨s, hs, b', q1', q2'⟩⟩
      exact not_both huz hux b q1 b' q2' (.inr ⟨ht, hs⟩)
  have hlt : lo < hi := hlo.trans hhi
  have inList : ∀ t, ((|p.x + t * v.x| = X / 2 ∧ |p.y + t * v.y| < Y / 2 ∧ |p.z + t * v.z| < Z / 2) ∨
      (|p.y + t * v.y| = Y / 2 ∧ |p.z + t * v.z| < Z / 2 ∧ |p.x + t * v.x| < X / 2) ∨
      (|p.z + t * v.z| = Z / 2 ∧ |p.x + t * v.x| < X / 2 ∧ |p.y + t * v.y| < Y / 2)) →
      t ∈ axisTimes p.x p.y p.z v.x v.y v.z X Y Z ++ axisTimes p.y p.z p.x v.y v.z v.x Y Z X ++
          axisTimes p.z p.x p.y v.z v.x v.y Z X Y := by
    intro t h
    rw [List.mem_append, List.mem_append]
    rcases h with h | h | h
    · exact .inl (.inr ((mx t).2 h))
    · exact .inr ((my t).2 h)
    · exact .inl (.inl ((mz t).2 h))
  have hcases := pair_cases (ts := axisTimes p.x p.y p.z v.x v.y v.z X Y Z ++
      axisTimes p.y p.z p.x v.y v.z v.x Y Z X ++ axisTimes p.z p.x p.y v.z v.x v.y Z X Y)
      (by rw [List.length_append, List.length_append, lx, ly, lz]; omega)
      (inList lo slo) (inList hi shi) hlt
  refine ⟨lo, hi, hlt, ?_, ?_⟩
  · rw [intersectBox_eq X Y Z p v hv]
    rcases hcases with h | h <;> rw [h]
    · exact (orderedPair_lt hlt).1
    · exact (orderedPair_lt hlt).2
  · intro t
    simp only [Mem, at_x, at_y, at_z]
    constructor
    · rintro ⟨hx, hy, hz⟩
      constructor
      · by_contra hn
        rw [not_le] at hn
        rcases hloB with (h | h) | h
        · exact absurd h (ne_of_lt (abs_between hx hux (.inl ⟨hn, hlo.le⟩)))
        · exact absurd h (ne_of_lt (abs_between hy huy (.inl ⟨hn, hlo.le⟩)))
        · exact absurd h (ne_of_lt (abs_between hz huz (.inl ⟨hn, hlo.le⟩)))
      · by_contra hn
        rw [not_le] at hn
        rcases hhiB with (h | h) | h
        · exact absurd h (ne_of_lt (abs_between hx hux (.inr ⟨hhi.le, hn⟩)))
        · exact absurd h (ne_of_lt (abs_between hy huy (.inr ⟨hhi.le, hn⟩)))
        · exact absurd h (ne_of_lt (abs_between hz huz (.inr ⟨hhi.le, hn⟩)))
    · rintro ⟨h1, h2⟩
      have inb : ∀ x w A, |x + lo * w| ≤ A → |x + hi * w| ≤ A → |x + u * w| < A → |x + t * w| ≤ A := by
        intro x w A hl hh hu
        rcases eq_or_lt_of_le h1 with rfl | h1
        · exact hl
        · rcases eq_or_lt_of_le h2 with rfl | h2
          · exact hh
          · rcases le_total t u with h | h
            · exact (abs_between hl hu (.inl ⟨h1, h⟩)).le
            · exact (abs_between hh hu (.inr ⟨h, h2⟩)).le
      exact ⟨inb _ _ _ hlox hhix hux, inb _ _ _ hloy hhiy huy, inb _ _ _ hloz hhiz huz⟩

end Verif.Solid
