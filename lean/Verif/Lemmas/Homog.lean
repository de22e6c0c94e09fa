import Verif.Spec.Homog
import Verif.Lemmas.Flight
import Mathlib.Analysis.SpecialFunctions.Integrals.Basic
import Mathlib.MeasureTheory.Integral.IntervalIntegral.Basic
/-!
Lemmas for the homogeneous scatterer.
-/

namespace Verif.Homog
open Solid Flight MeasureTheory

variable {K : Type}

/-- the expectation of a step function -/
theorem mean_step {a b A : ℝ} (ha : 0 ≤ a) (hab : a ≤ b) (hb : b ≤ 1) (f : ℝ → ℝ)
    (h1 : ∀ u, 0 < u → u < a → f u = 0) (h2 : ∀ u, a < u → u < b → f u = A)
    (h3 : ∀ u, b < u → u < 1 → f u = 0) : mean f = (b - a) * A := by
  have key : ∀ {x y c : ℝ}, x ≤ y → (∀ u, x < u → u < y → f u = c) →
      IntervalIntegrable f volume x y ∧ ∫ u in x..y, f u = (y - x) * c := by
    intro x y c hxy hf
    have hae : (fun _ : ℝ => c) =ᵐ[volume.restrict (Set.uIoc x y)] f := by
      rw [Set.uIoc_of_le hxy, ← restrict_Ioo_eq_restrict_Ioc]
      filter_upwards [ae_restrict_mem measurableSet_Ioo] with u hu
      exact (hf u hu.1 hu.2).symm
    constructor
    · exact (intervalIntegrable_const (c := c)).congr_ae hae
    · have : ∫ u in x..y, f u = ∫ _u in x..y, c := by
        apply intervalIntegral.integral_congr_ae_restrict
        exact hae.symm
      rw [this, intervalIntegral.integral_const, smul_eq_mul]
  obtain ⟨i1, e1⟩ := key ha h1
  obtain ⟨i2, e2⟩ := key hab h2
  obtain ⟨i3, e3⟩ := key hb h3
  rw [mean, ← intervalIntegral.integral_add_adjacent_intervals (i1.trans i2) i3,
    ← intervalIntegral.integral_add_adjacent_intervals i1 i2, e1, e2, e3]
  ring

/-- change of variable from the random number to the distance -/
theorem mean_distance (d : ℝ) (g : ℝ → ℝ) : mean (fun u => d * g (u * d)) = ∫ x in (0 : ℝ)..d, g x := by
  unfold mean
  rw [intervalIntegral.integral_const_mul]
  by_cases hd : d = 0
  · simp [hd]
  · rw [intervalIntegral.integral_comp_mul_right g hd]
    simp [hd]

theorem integral_decay (t d : ℝ) : t * ∫ x in (0 : ℝ)..d, Real.exp (-t * x) = 1 - Real.exp (-t * d) := by
  by_cases ht : t = 0
  · simp [ht]
  · have h : ∫ x in (0 : ℝ)..d, Real.exp (-t * x) = (-t)⁻¹ • ∫ x in (-t * 0)..(-t * d), Real.exp x :=
      intervalIntegral.integral_comp_mul_left (fun x => Real.exp x) (neg_ne_zero.2 ht)
    rw [h, integral_exp, smul_eq_mul, mul_zero, Real.exp_zero]
    field_simp
    ring

/-- the result of `interact_path1` once the neutron is at the surface -/
theorem interactPath1_eq {tol par : ℝ} {h : Scat K} {ev ev1 : Ev} {d : ℝ}
    (he : enter tol par h ev = .ok (ev1, d)) (u1 u2 : ℝ) (k : K) :
    interactPath1 tol par h u1 u2 k ev =
      (match h.channel (random u1 0 h.sum) with
      | .none => do
        let ev3 ← toExit tol par h.shape (h.pick u2 .none ev1 d)
        .ok (k, ev3, .none)
      | .absorption => do
        let k' ← h.kabsorb k (h.pick u2 .absorption ev1 d)
        .ok (k', { (h.pick u2 .absorption ev1 d) with p := -1 }, .absorption)
      | .scattering => do
        let (k', ev3) ← h.kscatter k (h.pick u2 .scattering ev1 d)
        if ev3.p * h.packing ≤ 0 then .ok (k', { ev3 with p := ev3.p * h.packing }, .absorption)
        else do
          let ev4 ← toExit tol par h.shape { ev3 with p := ev3.p * h.packing }
          let a ← h.atten tol par { ev3 with p := ev3.p * h.packing } ev4.r
          .ok (k', { ev4 with p := ev4.p * a }, .scattering)) := by
  unfold interactPath1
  rw [he]
  simp only [bind, Except.bind]
  cases h.channel (random u1 0 h.sum) <;> rfl

theorem channel_none {h : Scat K} {r : ℝ} : h.channel r = .none ↔ r < h.wT := by
  unfold Scat.channel; split <;> simp_all; split <;> simp_all

theorem channel_absorption {h : Scat K} {r : ℝ} :
    h.channel r = .absorption ↔ h.wT ≤ r ∧ r < h.wT + h.wA := by
  unfold Scat.channel
  split
  · simp; intro; linarith
  · split <;> simp_all

theorem channel_scattering {h : Scat K} {r : ℝ} (hA : 0 ≤ h.wA) :
    h.channel r = .scattering ↔ h.wT + h.wA ≤ r := by
  unfold Scat.channel
  split
  · simp; linarith
  · split <;> simp_all

/-- the expectation over the choice of the channel: transmission -/
theorem mean_none {h : Scat K} (hT : 0 ≤ h.wT) (hA : 0 ≤ h.wA) (hS : 0 ≤ h.wS) (hsum : 0 < h.sum)
    (f : ℝ → ℝ) (A : ℝ) (h1 : ∀ u, h.channel (random u 0 h.sum) = .none → f u = A)
    (h2 : ∀ u, h.channel (random u 0 h.sum) ≠ .none → f u = 0) : mean f = h.wT / h.sum * A := by
  have hle : h.wT / h.sum ≤ 1 := by rw [div_le_one hsum]; unfold Scat.sum; linarith
  rw [mean_step (a := 0) (b := h.wT / h.sum) (A := A) le_rfl (by positivity) hle f
    (fun u a b => absurd (a.trans b) (lt_irrefl _)), sub_zero]
  · intro u _ hu
    refine h1 u (channel_none.2 ?_)
    rw [lt_div_iff₀ hsum] at hu
    unfold random; linarith
  · intro u hu _
    refine h2 u fun hc => ?_
    have := channel_none.1 hc
    rw [div_lt_iff₀ hsum] at hu
    unfold random at this; linarith

/-- the expectation over the choice of the channel: absorption -/
theorem mean_absorption {h : Scat K} (hT : 0 ≤ h.wT) (hA : 0 ≤ h.wA) (hS : 0 ≤ h.wS)
    (hsum : 0 < h.sum) (f : ℝ → ℝ) (A : ℝ)
    (h1 : ∀ u, h.channel (random u 0 h.sum) = .absorption → f u = A)
    (h2 : ∀ u, h.channel (random u 0 h.sum) ≠ .absorption → f u = 0) :
    mean f = h.wA / h.sum * A := by
  have hle : (h.wT + h.wA) / h.sum ≤ 1 := by rw [div_le_one hsum]; unfold Scat.sum; linarith
  rw [mean_step (a := h.wT / h.sum) (b := (h.wT + h.wA) / h.sum) (A := A) (by positivity)
    (by gcongr; linarith) hle f]
  · field_simp; ring
  · intro u _ hu
    refine h2 u fun hc => ?_
    have := (channel_absorption.1 hc).1
    rw [lt_div_iff₀ hsum] at hu
    unfold random at this; linarith
  · intro u hu hu'
    refine h1 u (channel_absorption.2 ?_)
    rw [div_lt_iff₀ hsum] at hu
    rw [lt_div_iff₀ hsum] at hu'
    unfold random; constructor <;> linarith
  · intro u hu _
    refine h2 u fun hc => ?_
    have := (channel_absorption.1 hc).2
    rw [div_lt_iff₀ hsum] at hu
    unfold random at this; linarith

/-- the expectation over the choice of the channel: scattering -/
theorem mean_scattering {h : Scat K} (hT : 0 ≤ h.wT) (hA : 0 ≤ h.wA) (hS : 0 ≤ h.wS)
    (hsum : 0 < h.sum) (f : ℝ → ℝ) (A : ℝ)
    (h1 : ∀ u, h.channel (random u 0 h.sum) = .scattering → f u = A)
    (h2 : ∀ u, h.channel (random u 0 h.sum) ≠ .scattering → f u = 0) :
    mean f = h.wS / h.sum * A := by
  have hle : (h.wT + h.wA) / h.sum ≤ 1 := by rw [div_le_one hsum]; unfold Scat.sum; linarith
  rw [mean_step (a := (h.wT + h.wA) / h.sum) (b := 1) (A := A) (by positivity) hle le_rfl f]
  · have : 1 - (h.wT + h.wA) / h.sum = h.wS / h.sum := by
      unfold Scat.sum at *; field_simp; ring
    rw [this]
  · intro u _ hu
    refine h2 u fun hc => ?_
    have := (channel_scattering hA).1 hc
    rw [lt_div_iff₀ hsum] at hu
    unfold random at this; linarith
  · intro u hu _
    refine h1 u ((channel_scattering hA).2 ?_)
    rw [div_lt_iff₀ hsum] at hu
    unfold random; linarith
  · intro u a b; exact absurd (a.trans b) (lt_irrefl _)

theorem enter_probe (tol par : ℝ) (h : Scat K) (ev : Ev) : enter tol par (probe h) ev = enter tol par h ev := rfl
theorem pick_probe (h : Scat K) (u : ℝ) (c : IType) (ev : Ev) (d : ℝ) :
    (probe h).pick u c ev d = h.pick u c ev d := rfl
theorem channel_probe (h : Scat K) (r : ℝ) : (probe h).channel r = h.channel r := rfl
theorem sum_probe (h : Scat K) : (probe h).sum = h.sum := rfl

theorem interactPath1_probe_absorption {tol par : ℝ} {h : Scat K} {ev ev1 : Ev} {d : ℝ}
    (he : enter tol par h ev = .ok (ev1, d)) (u1 u2 : ℝ) (G : Obs) :
    score (interactPath1 tol par (probe h) u1 u2 ([], []) ev) (fun o => tally G o.1.1) =
      if h.channel (random u1 0 h.sum) = .absorption then
        (h.pick u2 .absorption ev1 d).p * G (h.pick u2 .absorption ev1 d).r
          (h.pick u2 .absorption ev1 d).v (h.pick u2 .absorption ev1 d).t
      else 0 := by
  rw [interactPath1_eq (h := probe h) he, channel_probe, sum_probe]
  cases hc : h.channel (random u1 0 h.sum) with
  | none =>
    simp only [bind, Except.bind, pick_probe]
    cases toExit tol par (probe h).shape (h.pick u2 .none ev1 d) <;> simp [score, tally]
  | absorption => simp [score, tally, probe, bind, Except.bind, ← pick_probe]
  | scattering => simp [score, tally, probe, bind, Except.bind]

theorem interactPath1_probe_scattering {tol par : ℝ} {h : Scat K} {ev ev1 : Ev} {d : ℝ}
    (he : enter tol par h ev = .ok (ev1, d)) (u1 u2 : ℝ) (G : Obs) :
    score (interactPath1 tol par (probe h) u1 u2 ([], []) ev) (fun o => tally G o.1.2) =
      if h.channel (random u1 0 h.sum) = .scattering then
        (h.pick u2 .scattering ev1 d).p * G (h.pick u2 .scattering ev1 d).r
          (h.pick u2 .scattering ev1 d).v (h.pick u2 .scattering ev1 d).t
      else 0 := by
  rw [interactPath1_eq (h := probe h) he, channel_probe, sum_probe]
  cases hc : h.channel (random u1 0 h.sum) with
  | none =>
    simp only [bind, Except.bind, pick_probe]
    cases toExit tol par (probe h).shape (h.pick u2 .none ev1 d) <;> simp [score, tally]
  | absorption => simp [score, tally, probe, bind, Except.bind]
  | scattering => simp [score, tally, probe, bind, Except.bind, ← pick_probe]

theorem enter_cases {tol par : ℝ} {h : Scat K} {ev ev1 : Ev} {d : ℝ}
    (he : enter tol par h ev = .ok (ev1, d)) :
    (∃ τ, 0 ≤ τ ∧ FliesFor ev ev1 τ) ∧ (locate tol h.shape ev.r = .ok .inside → ev1 = ev) ∧
    ∃ τ, tofBeforeExit tol par h.shape ev1 = .ok τ ∧ d = τ * length ev1.v := by
  unfold enter at he
  cases hl : locate tol h.shape ev.r with
  | error e => rw [hl] at he; cases he
  | ok loc =>
    rw [hl] at he
    simp only [bind, Except.bind] at he
    by_cases hi : loc = .inside
    · subst hi
      simp only [ne_eq, not_true_eq_false, if_false] at he
      cases ht : tofBeforeExit tol par h.shape ev with
      | error e => rw [ht] at he; cases he
      | ok τ =>
        rw [ht] at he
        cases he
        exact ⟨⟨0, le_rfl, FliesFor.refl _⟩, fun _ => rfl, τ, ht, rfl⟩
    · simp only [ne_eq, hi, not_false_eq_true, if_true] at he
      cases h1 : toIncident tol par h.shape ev with
      | error e => rw [h1] at he; cases he
      | ok ev' =>
        rw [h1] at he
        simp only at he
        cases ht : tofBeforeExit tol par h.shape ev' with
        | error e => rw [ht] at he; cases he
        | ok τ =>
          rw [ht] at he
          cases he
          refine ⟨toIncident_flies h1, fun hc => ?_, τ, ht, rfl⟩
          cases hc; exact absurd rfl hi

theorem borderLoop_weight (tol : ℝ) (stop go : Loc) (s : Shape) (ev : Ev) (q : ℝ) (ts : List ℝ) :
    borderLoop tol stop go s { ev with p := q } ts = borderLoop tol stop go s ev ts := by
  induction ts with
  | nil => rfl
  | cons t l ih => simp only [borderLoop, ih]

theorem tof_weight (tol par : ℝ) (s : Shape) (ev : Ev) (q : ℝ) :
    tofBeforeExit tol par s { ev with p := q } = tofBeforeExit tol par s ev := by
  simp only [tofBeforeExit, borderLoop_weight]

theorem interactPath1_none {tol par : ℝ} {h : Scat K} {ev ev1 : Ev} {d : ℝ}
    (he : enter tol par h ev = .ok (ev1, d)) (hv : ev1.v ≠ 0) (u1 u2 : ℝ) (k : K) (G : Obs) :
    score (interactPath1 tol par h u1 u2 k ev)
      (fun o => if o.2.2 = .none then tally G [o.2.1] else 0) =
      if h.channel (random u1 0 h.sum) = .none then
        ev1.p * (Real.exp (-(h.mu ev1 + h.sigma ev1) * d) * (h.sum / h.wT)) * along G ev1 d
      else 0 := by
  obtain ⟨-, -, τ, hτ, rfl⟩ := enter_cases he
  have hlen : √(ev1.v.dot ev1.v) ≠ 0 := (Real.sqrt_pos.2 (dot_self_pos hv)).ne'
  rw [interactPath1_eq he]
  cases hc : h.channel (random u1 0 h.sum) with
  | none =>
    have hx : ∀ q, toExit tol par h.shape { ev1 with p := q } = .ok (propagate { ev1 with p := q } τ) :=
      fun q => (tofBeforeExit_toExit ((tof_weight tol par h.shape ev1 q).trans hτ)).2
    simp only [Scat.pick, hx, bind, Except.bind, score, if_true, tally, propagate, along, at',
      length_eq, List.map_cons, List.map_nil, List.sum_cons, List.sum_nil, add_zero]
    rw [mul_div_cancel_right₀ _ hlen]
  | absorption =>
    simp only [bind, Except.bind]
    cases h.kabsorb k (h.pick u2 .absorption ev1 (τ * length ev1.v)) <;> simp [score]
  | scattering =>
    simp only [bind, Except.bind]
    cases h.kscatter k (h.pick u2 .scattering ev1 (τ * length ev1.v)) with
    | error e => simp [score]
    | ok o =>
      simp only
      split
      · simp [score]
      · cases toExit tol par h.shape { o.2 with p := o.2.p * h.packing } with
        | error e => simp [score]
        | ok ev4 =>
          simp only
          cases h.atten tol par { o.2 with p := o.2.p * h.packing } ev4.r <;> simp [score]

theorem toIncident_weight (tol par : ℝ) (s : Shape) (ev : Ev) (q : ℝ) :
    toIncident tol par s { ev with p := q } =
      (toIncident tol par s ev).map fun e => { e with p := q } := by
  unfold toIncident
  cases locate tol s ev.r with
  | error e => rfl
  | ok loc =>
    simp only [bind, Except.bind]
    split
    · rfl
    · cases forwardIntersect tol par s ev.r ev.v with
      | error e => rfl
      | ok tofs =>
        cases tofs with
        | nil => rfl
        | cons t l =>
          simp only
          split
          · rfl
          · have : borderLoop tol .inside .outside s { ev with p := q } (t :: l) =
                borderLoop tol .inside .outside s ev (t :: l) := borderLoop_weight ..
            rw [this]
            cases borderLoop tol .inside .outside s ev (t :: l) with
            | error e => rfl
            | ok o => cases o <;> rfl

theorem exitFromFront_weight (tol par : ℝ) (s : Shape) (ev : Ev) (q : ℝ) :
    exitFromFront tol par s { ev with p := q } =
      (exitFromFront tol par s ev).map fun e => { e with p := q } := by
  unfold exitFromFront
  cases forwardIntersect tol par s ev.r ev.v with
  | error e => rfl
  | ok tofs =>
    simp only [bind, Except.bind]
    cases locate tol s ev.r with
    | error e => rfl
    | ok loc =>
      simp only
      split
      · rfl
      · rw [borderLoop_weight]
        cases borderLoop tol .outside .inside s ev tofs with
        | error e => rfl
        | ok o => cases o <;> rfl

theorem toExit_weight (tol par : ℝ) (s : Shape) (ev : Ev) (q : ℝ) :
    toExit tol par s { ev with p := q } =
      (toExit tol par s ev).map fun e => { e with p := q } := by
  unfold toExit
  cases locate tol s ev.r with
  | error e => rfl
  | ok loc =>
    simp only [bind, Except.bind]
    split
    · cases forwardIntersect tol par s ev.r ev.v with
      | error e => rfl
      | ok tofs => cases tofs <;> rfl
    · split
      · rw [toIncident_weight]
        cases toIncident tol par s ev with
        | error e => rfl
        | ok e => exact exitFromFront_weight ..
      · exact exitFromFront_weight ..

theorem interactPath1_kernel {tol par : ℝ} {h : Scat K} {u1 u2 : ℝ} {ev : Ev}
    {rec : (List Ev × List Ev) × Ev × IType}
    (hp : interactPath1 tol par (probe h) u1 u2 ([], []) ev = .ok rec) (k : K) :
    (∀ e ∈ rec.1.1, interactPath1 tol par h u1 u2 k ev =
      (h.kabsorb k e).map fun k' => (k', { e with p := -1 }, .absorption)) ∧
    (∀ e ∈ rec.1.2, ∀ k' e', h.kscatter k e = .ok (k', e') → 0 < e'.p * h.packing →
      ∀ out, toExit tol par h.shape e' = .ok out →
        ∀ a, attenuation tol par h.shape (h.mu { e' with p := e'.p * h.packing })
          (h.sigma { e' with p := e'.p * h.packing }) e' out.r = .ok a →
        interactPath1 tol par h u1 u2 k ev =
          .ok (k', { out with p := e'.p * h.packing * a }, .scattering)) ∧
    rec.1.1.length + rec.1.2.length ≤ 1 := by
  cases he : enter tol par h ev with
  | error e =>
    unfold interactPath1 at hp
    rw [enter_probe, he] at hp
    cases hp
  | ok o =>
    obtain ⟨ev1, d⟩ := o
    rw [interactPath1_eq (h := probe h) he, channel_probe, sum_probe] at hp
    rw [interactPath1_eq he]
    cases hc : h.channel (random u1 0 h.sum) with
    | none =>
      rw [hc] at hp
      simp only [bind, Except.bind] at hp
      cases hx : toExit tol par (probe h).shape ((probe h).pick u2 .none ev1 d) with
      | error e => rw [hx] at hp; cases hp
      | ok e => rw [hx] at hp; cases hp; simp
    | absorption =>
      rw [hc] at hp
      simp only [bind, Except.bind, probe, List.nil_append] at hp
      cases hp
      refine ⟨?_, by simp, by simp⟩
      intro e hmem
      rw [List.mem_singleton] at hmem
      subst hmem
      rw [← pick_probe]
      simp only [bind, Except.bind]
      cases h.kabsorb k ((probe h).pick u2 .absorption ev1 d) <;> rfl
    | scattering =>
      rw [hc] at hp
      simp only [bind, Except.bind, probe, List.nil_append, zero_mul, le_refl, if_true] at hp
      cases hp
      refine ⟨by simp, ?_, by simp⟩
      intro e hmem k' e' hk hpos out hout a ha
      rw [List.mem_singleton] at hmem
      have hmem' : e = h.pick u2 .scattering ev1 d := hmem
      rw [← hmem']
      simp only [bind, Except.bind, hk, if_neg (not_le.2 hpos), toExit_weight, hout, Except.map]
      have : h.atten tol par { e' with p := e'.p * h.packing } out.r = .ok a := ha
      rw [this]

theorem interactM1_probe {tol par : ℝ} {h : Scat K} {ev ev1 : Ev} {d : ℝ}
    (he : enter tol par h ev = .ok (ev1, d)) (hv : ev1.v ≠ 0) (u : ℝ) :
    interactM1 tol par (probe h) u ([], []) ev =
      .ok (([{ ev1 with p := ev1.p * ((1 - Real.exp (-(h.mu ev1 + h.sigma ev1) * d)) *
          (h.mu ev1 / (h.mu ev1 + h.sigma ev1))) }],
        [propagate { ev1 with p := ev1.p * (d * Real.exp (-(h.mu ev1 + h.sigma ev1) * random u 0 d)) }
          (random u 0 d / length ev1.v)]),
        [{ propagate ev1 (d / length ev1.v) with
          p := ev1.p * Real.exp (-(h.mu ev1 + h.sigma ev1) * d) },
         { propagate ev1 (random u 0 d / length ev1.v) with p := 0 }]) := by
  obtain ⟨-, -, τ, hτ, rfl⟩ := enter_cases he
  have hlen : length ev1.v ≠ 0 := (Real.sqrt_pos.2 (dot_self_pos hv)).ne'
  have hx := (tofBeforeExit_toExit hτ).2
  unfold interactM1
  rw [enter_probe, he]
  have hx' : toExit tol par (probe h).shape ev1 = .ok (propagate ev1 τ) := hx
  simp only [bind, Except.bind, hx']
  simp only [probe, List.nil_append, propagate, zero_mul]
  rw [mul_div_cancel_right₀ _ hlen]
  rfl

end Verif.Homog
