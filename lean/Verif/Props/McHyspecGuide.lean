import Verif.Lemmas.McHyspecGuide
/-!
Property theorems: the curved guide of HYSPEC.
-/

namespace Verif.McHyspec
open McStas Kinem Flight Solid Homog McMon McOpt McGuide
open Classical

/-- C280: the guide: a neutron that comes to each piece in forward flight passes the pieces one after the other by straight flights and
reflections, or is stopped at an entrance or where a mirror does not reflect.  What is returned after `N` pieces is the neutron in the frame of
the last piece, shifted along `z` by the length of the others.  Missing: gravity, and the neutrons that do not come forward to an entrance
(`C280_time_false`) -/
theorem C280_partial (g : Guide) (hl : 0 < g.l) (hR : g.R ≠ 0) (N : ℕ) (hN : g.nseg = N) (h0 : 0 < N) (fuel : Nat) (e r : Event ℝ)
    (h : g.trace Off fuel e = some r) :
    (∃ b, g.Travels N e b ∧ r = { b with r := b.r + (⟨0, 0, (N - 1) * (g.l + g.dseg)⟩ : V3 ℝ) }) ∨ g.Halts N e r ∨ g.Astray N e := by
  obtain ⟨n, rfl⟩ : ∃ n, N = n + 1 := ⟨N - 1, by omega⟩
  unfold Guide.trace at h
  have hc : ⌈g.nseg⌉₊ = n + 1 := by rw [hN, Nat.ceil_natCast]
  rw [hc] at h
  rcases hs : g.segments Off fuel (n + 1) 1 e with _ | ⟨x, b⟩
  · rw [hs] at h; cases h
  rw [hs] at h
  have h1 : g.segments Off fuel (n + 1) ((1 : ℕ) : ℝ) e = some (x, b) := by rw [Nat.cast_one]; exact hs
  rcases segments_sound hl hR fuel hN n 1 e b x (by omega) h1 with ⟨rfl, h2⟩ | ⟨rfl, h2⟩ | h2
  · simp only [Option.some.injEq] at h
    subst h
    refine .inl ⟨b, h2, ?_⟩
    rw [hN]
    congr 1
    ext <;> simp
  · simp only [Option.some.injEq] at h
    subst h
    exact .inr (.inl h2)
  · exact .inr (.inr h2)

/-- C280: the loops end for every neutron that comes to each entrance in forward flight -/
theorem C280_ends (g : Guide) (hl : 0 < g.l) (hw : 0 < g.w) (hh : 0 < g.h) (hR : g.R ≠ 0) (N : ℕ) (hN : g.nseg = N) (e : Event ℝ)
    (h : ¬ g.Astray N e) : ∃ fuel0, ∀ fuel, fuel0 ≤ fuel → ∃ r, g.trace Off fuel e = some r := by
  obtain ⟨f0, hf⟩ := segments_ends hl hw hh hR N 1 e h
  refine ⟨f0, fun fuel hfu => ?_⟩
  obtain ⟨⟨x, b⟩, hy⟩ := hf fuel hfu
  unfold Guide.trace
  rw [hN, Nat.ceil_natCast, hy]
  cases x <;> exact ⟨_, rfl⟩

/-- C280: the frames of the pieces: the turn from a piece to the next one does not move the neutron, if the middles of the pieces are on a
circle of radius `R` and each piece is a tangent of it -/
theorem C280_arc (g : Guide) (hR : g.R ≠ 0) (j : ℕ) (b : Event ℝ) : g.seen (j + 1) (g.turn b) = g.seen j b := seen_turn hR j b

/-- C280: a neutron at the end of a piece is before the entrance of the next one, if the gap is not too small -/
theorem C280_gap (g : Guide) (hR : 0 < g.R) (hl : 0 < g.l) (hd : 0 ≤ g.dseg) (hg : g.w * (g.l + g.dseg) ≤ 2 * g.R * g.dseg) (b : Event ℝ)
    (hb : b.r.z = g.l) (hx : |b.r.x| ≤ g.w / 2) (hv : 0 < b.v.z * Real.cos g.alf + b.v.x * Real.sin g.alf) :
    ∃ a, Forward (g.turn b) a := by
  refine ⟨_, forward_of ?_ hv⟩
  obtain ⟨h1, h2⟩ := tangents hR.ne'
  simp only [Guide.turn, hb]
  have hsp : 0 ≤ 1 + Real.cos g.alf := by linarith [Real.neg_one_le_cos g.alf]
  have hs : 0 ≤ Real.sin g.alf := by
    have : 0 ≤ g.R * Real.sin g.alf := by rw [h1]; exact mul_nonneg (by linarith) hsp
    exact nonneg_of_mul_nonneg_right this hR
  have hxs : b.r.x * Real.sin g.alf ≤ g.w / 2 * Real.sin g.alf := mul_le_mul_of_nonneg_right (abs_le.1 hx).2 hs
  have hk : g.R * (g.w / 2 * Real.sin g.alf) ≤ g.R * (g.dseg / 2 * (1 + Real.cos g.alf)) := by
    have h3 : g.R * (g.w / 2 * Real.sin g.alf) = g.w * (g.l + g.dseg) * ((1 + Real.cos g.alf) / 4) := by linear_combination (g.w / 2) * h1
    have h4 : g.R * (g.dseg / 2 * (1 + Real.cos g.alf)) = 2 * g.R * g.dseg * ((1 + Real.cos g.alf) / 4) := by ring
    rw [h3, h4]
    exact mul_le_mul_of_nonneg_right hg (by linarith)
  have := le_of_mul_le_mul_left hk hR
  linarith

/-- a strongly curved guide of two pieces with a gap -/
noncomputable def bent : Guide := ⟨10, 10, 1, 1, 1, 0, 1, 1, 1, 1, 1, 2, 2, 1⟩

/-- a neutron on the axis of the first piece -/
noncomputable def axial : Event ℝ := ⟨⟨0, 0, 0⟩, ⟨0, 0, 1⟩, 0, 0, 0, 1⟩

/-- what comes out in the frame of the last piece -/
noncomputable def out2 : Event ℝ := ⟨⟨-2, 0, 1⟩, ⟨-(4 / 5), 0, 3 / 5⟩, 0, 0, 4, 1⟩

theorem bent_arc : Real.cos bent.alf = 3 / 5 ∧ Real.sin bent.alf = 4 / 5 := arc_half (by norm_num [bent])

theorem bent_turn : bent.turn ⟨⟨0, 0, 1⟩, ⟨0, 0, 1⟩, 0, 0, 1, 1⟩ = ⟨⟨2 / 5, 0, -(4 / 5)⟩, ⟨-(4 / 5), 0, 3 / 5⟩, 0, 0, 1, 1⟩ := by
  unfold Guide.turn
  rw [bent_arc.1, bent_arc.2]
  norm_num [bent]

theorem bent_first (fuel : Nat) : Forward axial axial ∧ bent.pass Off (fuel + 1) axial = some (false, ⟨⟨0, 0, 1⟩, ⟨0, 0, 1⟩, 0, 0, 1, 1⟩) := by
  have hf := forward_of (e := axial) (by norm_num [axial]) (by norm_num [axial])
  have ha : flown Off axial (-axial.r.z / axial.v.z) = axial := by
    rw [flown_eq]
    apply Event.ext
    · ext <;> norm_num [axial]
    all_goals norm_num [axial]
  rw [ha] at hf
  refine ⟨hf, ?_⟩
  rw [pass_free (by norm_num [bent]) hf]
  · have : flown Off axial (bent.l / axial.v.z) = ⟨⟨0, 0, 1⟩, ⟨0, 0, 1⟩, 0, 0, 1, 1⟩ := by
      rw [flown_eq]
      apply Event.ext
      · ext <;> norm_num [axial, bent]
      all_goals norm_num [axial, bent]
    rw [this]
  · intro τ _ _
    rw [off_r]
    norm_num [Guide.Open, axial, bent]

theorem bent_second (fuel : Nat) : ∃ a, Forward ⟨⟨2 / 5, 0, -(4 / 5)⟩, ⟨-(4 / 5), 0, 3 / 5⟩, 0, 0, 1, 1⟩ a ∧
    bent.pass Off (fuel + 1) ⟨⟨2 / 5, 0, -(4 / 5)⟩, ⟨-(4 / 5), 0, 3 / 5⟩, 0, 0, 1, 1⟩ = some (false, out2) := by
  have hf := forward_of (e := ⟨⟨2 / 5, 0, -(4 / 5)⟩, ⟨-(4 / 5), 0, 3 / 5⟩, 0, 0, 1, 1⟩) (by norm_num) (by norm_num)
  refine ⟨_, hf, ?_⟩
  rw [pass_free (by norm_num [bent]) hf]
  · congr 2
    apply Event.ext
    · rw [off_r, off_r, off_v]; ext <;> norm_num [out2, bent]
    · rw [off_v, off_v]; rfl
    · rfl
    · rfl
    · norm_num [flown, out2, bent]
    · rfl
  · intro τ h0 h1
    rw [off_r, off_r, off_v]
    norm_num [bent] at h1
    simp only [Guide.Open, V3.add_x, V3.add_y, V3.smul_x, V3.smul_y, bent, abs_lt]
    norm_num
    constructor <;> linarith

theorem bent_trace (fuel : Nat) : bent.trace Off (fuel + 1) axial = some { out2 with r := ⟨-2, 0, 3⟩ } := by
  unfold Guide.trace
  have hc : ⌈bent.nseg⌉₊ = 2 := by
    have : bent.nseg = (2 : ℕ) := by norm_num [bent]
    rw [this, Nat.ceil_natCast]
  obtain ⟨a, ha, hp⟩ := bent_second fuel
  rw [hc, Guide.segments, (bent_first fuel).2]
  simp only
  rw [if_neg (by norm_num [bent]), bent_turn, Guide.segments, hp]
  simp only
  rw [if_pos (by norm_num [bent])]
  norm_num [out2, bent]

theorem bent_travels : bent.Travels 2 axial out2 := by
  obtain ⟨a, ha, hp⟩ := bent_second 0
  have hl : 0 < bent.l := by norm_num [bent]
  have h1 := pass_sound hl (bent_first 0).1 (bent_first 0).2
  have h2 := pass_sound hl ha hp
  simp only [Bool.false_eq_true, false_and, true_and, false_or] at h1 h2
  refine .more (bent_first 0).1 h1 ?_ (.last ha h2)
  have := seen_turn (g := bent) (by norm_num [bent]) 0 ⟨⟨0, 0, 1⟩, ⟨0, 0, 1⟩, 0, 0, 1, 1⟩
  rw [bent_turn] at this
  exact this.symm

/-- the hypotheses of `C280_partial` -/
example : 0 < bent.l ∧ bent.R ≠ 0 ∧ bent.nseg = (2 : ℕ) ∧ bent.Travels 2 axial out2 ∧ bent.trace Off 1 axial = some { out2 with r := ⟨-2, 0, 3⟩ } :=
  ⟨by norm_num [bent], by norm_num [bent], by norm_num [bent], bent_travels, bent_trace 0⟩

/-- the hypothesis of `C280_ends` -/
example : ¬ bent.Astray 2 axial := by
  have hl : 0 < bent.l := by norm_num [bent]
  obtain ⟨a, ha, hp⟩ := bent_second 0
  intro h
  cases h with
  | here h => exact h ⟨_, (bent_first 0).1⟩
  | @later _ _ a1 b b' hf hl1 hs hA =>
    have ha1 : a1 = axial := by rw [← comes_prop hf.1, comes_prop (bent_first 0).1.1]
    subst ha1
    have hb : b = ⟨⟨0, 0, 1⟩, ⟨0, 0, 1⟩, 0, 0, 1, 1⟩ := by
      obtain ⟨-, c, s, hst, hs0, hbe, hbz, -⟩ := hl1
      have hc : c = axial := by
        rcases Relation.ReflTransGen.cases_head hst with h | ⟨d, ⟨e1, k, ⟨s', n, m, h1, h2, -, -⟩, -⟩, -⟩
        · exact h.symm
        · exfalso
          rw [off_r] at h2
          norm_num [Guide.Side, axial, bent] at h2
      subst hc
      rw [hbe, flown_eq] at hbz
      norm_num [axial, bent] at hbz
      rw [hbe, hbz, flown_eq]
      apply Event.ext
      · ext <;> norm_num [axial]
      all_goals norm_num [axial]
    subst hb
    have hb' : b' = ⟨⟨2 / 5, 0, -(4 / 5)⟩, ⟨-(4 / 5), 0, 3 / 5⟩, 0, 0, 1, 1⟩ := by
      have h1 := seen_turn (g := bent) (by norm_num [bent]) 0 ⟨⟨0, 0, 1⟩, ⟨0, 0, 1⟩, 0, 0, 1, 1⟩
      rw [bent_turn] at h1
      exact seen_inj bent 1 (hs.symm.trans h1.symm)
    subst hb'
    cases hA with
    | here h => exact h ⟨a, ha⟩
    | later _ _ _ h => cases h

/-- C280 is false: what is returned is not where the neutron is.  A neutron that flies straight along the first axis without touching a
mirror is at (0, 0, 4) with the velocity (0, 0, 1) at the end; it is returned at (-2, 0, 3) with the velocity (-0.8, 0, 0.6): the turns of
the frame are not undone (the code for it is a comment) -/
theorem C280_frame_false : ¬ ∀ (g : Guide) (N : ℕ) (e b r : Event ℝ) (fuel : Nat), 0 < g.l → 0 < g.R → 0 ≤ g.dseg → g.nseg = N →
    g.Travels N e b → g.trace Off fuel e = some r → 0 < r.p → r = g.seen (N - 1) b := by
  intro h
  have h1 := h bent 2 axial out2 _ 1 (by norm_num [bent]) (by norm_num [bent]) (by norm_num [bent]) (by norm_num [bent]) bent_travels
    (bent_trace 0) (by norm_num [out2])
  have h2 := congrArg (fun e => e.v.x) h1
  have ha : ((2 - 1 : ℕ) : ℝ) * bent.angle = bent.alf := by rw [alf_eq]; norm_num
  simp only [Guide.seen, ha, bent_arc.1, bent_arc.2] at h2
  norm_num [out2] at h2

/-- where this neutron is -/
example : (bent.seen (2 - 1) out2).r = ⟨0, 0, 4⟩ ∧ (bent.seen (2 - 1) out2).v = ⟨0, 0, 1⟩ := by
  have ha : ((2 - 1 : ℕ) : ℝ) * bent.angle = bent.alf := by rw [alf_eq]; norm_num
  simp only [Guide.seen, ha, bent_arc.1, bent_arc.2]
  norm_num [out2, bent]

/-- C280: with one piece the neutron is returned where it is -/
theorem C280_single (g : Guide) (hl : 0 < g.l) (hR : g.R ≠ 0) (hN : g.nseg = (1 : ℕ)) (fuel : Nat) (e a r : Event ℝ) (hf : Forward e a)
    (h : g.trace Off fuel e = some r) : g.Leg a r ∨ g.Blocked a r := by
  have uniq : ∀ {a'}, Forward e a' → a' = a := fun hf' => by rw [← comes_prop hf'.1, comes_prop hf.1]
  rcases C280_partial g hl hR 1 hN one_pos fuel e r h with ⟨b, hb, rfl⟩ | hh | ha
  · left
    have hz : ({ b with r := b.r + (⟨0, 0, ((1 : ℕ) - 1 : ℝ) * (g.l + g.dseg)⟩ : V3 ℝ) } : Event ℝ) = b := by
      apply Event.ext
      · ext <;> simp
      all_goals rfl
    rw [hz]
    cases hb with
    | last h1 h2 => rw [← uniq h1]; exact h2
    | more _ _ _ h2 => cases h2
  · right
    cases hh with
    | here h1 h2 => rw [← uniq h1]; exact h2
    | later _ _ _ h2 => cases h2
  · cases ha with
    | here h1 => exact absurd ⟨a, hf⟩ h1
    | later _ _ _ h2 => cases h2

example : ∃ r, ({ bent with nseg := 1 } : Guide).trace Off 1 axial = some r ∧ Forward axial axial := by
  refine ⟨⟨⟨0, 0, 1⟩, ⟨0, 0, 1⟩, 0, 0, 1, 1⟩, ?_, (bent_first 0).1⟩
  unfold Guide.trace
  have hc : ⌈({ bent with nseg := 1 } : Guide).nseg⌉₊ = 1 := by
    have : ({ bent with nseg := 1 } : Guide).nseg = (1 : ℕ) := by norm_num
    rw [this, Nat.ceil_natCast]
  rw [hc, Guide.segments]
  have : ({ bent with nseg := 1 } : Guide).pass Off 1 axial = some (false, ⟨⟨0, 0, 1⟩, ⟨0, 0, 1⟩, 0, 0, 1, 1⟩) := by
    have hf := (bent_first 0).1
    rw [pass_free (by norm_num [bent]) hf]
    · have : flown Off axial (({ bent with nseg := 1 } : Guide).l / axial.v.z) = ⟨⟨0, 0, 1⟩, ⟨0, 0, 1⟩, 0, 0, 1, 1⟩ := by
        rw [flown_eq]
        apply Event.ext
        · ext <;> norm_num [axial, bent]
        all_goals norm_num [axial, bent]
      rw [this]
    · intro τ _ _
      rw [off_r]
      norm_num [Guide.Open, axial, bent]
  rw [this]
  simp

/-- the hypotheses of `C280_gap` -/
example : ∃ g : Guide, 0 < g.R ∧ 0 < g.l ∧ 0 ≤ g.dseg ∧ 0 < g.w ∧ g.w * (g.l + g.dseg) ≤ 2 * g.R * g.dseg ∧
    0 < (1 : ℝ) * Real.cos g.alf + 0 * Real.sin g.alf := by
  refine ⟨{ bent with w := 1 }, by norm_num [bent], by norm_num [bent], by norm_num [bent], by norm_num [bent], by norm_num [bent], ?_⟩
  have := (arc_half (g := { bent with w := 1 }) (by norm_num [bent])).1
  rw [this]; norm_num

/-- a strongly curved guide of two pieces without a gap -/
noncomputable def tight : Guide := ⟨3, 3, 1, 1, 1, 0, 1, 1, 1, 1, 1, 2, 1, 0⟩

/-- a neutron parallel to the axis of the first piece -/
noncomputable def aside : Event ℝ := ⟨⟨1, 0, 0⟩, ⟨0, 0, 1⟩, 0, 0, 0, 1⟩

/-- C280 is false: without a gap neutrons at the inner side are moved back to the entrance of the next piece:
here the neutron enters at the time 0 and is stopped at the time -1/3 -/
theorem C280_time_false : Forward aside aside ∧ ∃ r, tight.trace Off 1 aside = some r ∧ r.p = -1 ∧ r.t = -(1 / 3) := by
  have hf := forward_of (e := aside) (by norm_num [aside]) (by norm_num [aside])
  have ha : flown Off aside (-aside.r.z / aside.v.z) = aside := by
    rw [flown_eq]
    apply Event.ext
    · ext <;> norm_num [aside]
    all_goals norm_num [aside]
  rw [ha] at hf
  refine ⟨hf, ?_⟩
  have hp : tight.pass Off 1 aside = some (false, ⟨⟨1, 0, 1⟩, ⟨0, 0, 1⟩, 0, 0, 1, 1⟩) := by
    rw [pass_free (by norm_num [tight]) hf]
    · have : flown Off aside (tight.l / aside.v.z) = ⟨⟨1, 0, 1⟩, ⟨0, 0, 1⟩, 0, 0, 1, 1⟩ := by
        rw [flown_eq]
        apply Event.ext
        · ext <;> norm_num [aside, tight]
        all_goals norm_num [aside, tight]
      rw [this]
    · intro τ _ _
      rw [off_r]
      norm_num [Guide.Open, aside, tight]
  obtain ⟨hc, hs⟩ : Real.cos tight.alf = 3 / 5 ∧ Real.sin tight.alf = 4 / 5 := arc_half (by norm_num [tight])
  have ht : tight.turn ⟨⟨1, 0, 1⟩, ⟨0, 0, 1⟩, 0, 0, 1, 1⟩ = ⟨⟨3 / 5, 0, 4 / 5⟩, ⟨-(4 / 5), 0, 3 / 5⟩, 0, 0, 1, 1⟩ := by
    unfold Guide.turn
    rw [hc, hs]
    norm_num [tight]
  have hz : propZ0 Off ⟨⟨3 / 5, 0, 4 / 5⟩, ⟨-(4 / 5), 0, 3 / 5⟩, 0, 0, 1, 1⟩ = ⟨⟨5 / 3, 0, 0⟩, ⟨-(4 / 5), 0, 3 / 5⟩, 0, 0, -(1 / 3), 1⟩ := by
    norm_num [propZ0, Off, propZ0Free, propDtFree]
    try (ext <;> norm_num)
  have hn : ⌈tight.nseg⌉₊ = 2 := by
    have : tight.nseg = (2 : ℕ) := by norm_num [tight]
    rw [this, Nat.ceil_natCast]
  refine ⟨absorb ⟨⟨5 / 3, 0, 0⟩, ⟨-(4 / 5), 0, 3 / 5⟩, 0, 0, -(1 / 3), 1⟩, ?_, rfl, rfl⟩
  unfold Guide.trace
  rw [hn, Guide.segments, hp]
  simp only
  rw [if_neg (by norm_num [tight]), ht, Guide.segments]
  unfold Guide.pass
  rw [hz]
  norm_num [tight]

end Verif.McHyspec
