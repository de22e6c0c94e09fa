import Verif.Lemmas.Multi
import Verif.Props.Homog
/-!
Property theorems about the multiple scattering mode of the homogeneous scatterer and the packing factor:
C101, C102.
-/

namespace Verif.Homog
open Solid Flight
variable {K : Type}

/-! ### C101 multiple scattering loses nothing -/

/-- **C101** Bookkeeping of the multiple scattering mode: let `W` be a quantity that neutrons carry and `Φ`
one that the kernel keeps, such that one interaction with its own random number conserves the sum, and such
that neutrons below the two thresholds carry none.  Then the sum is conserved by the whole cascade: every
neutron is followed exactly once, with a random number of its own, and every neutron that leaves or is left
over is returned exactly once. -/
theorem C101_ledger (tol par : ℝ) (h : Scat K) (us : Nat → ℝ) (W : Ev → ℝ) (Φ : Nat → K → ℝ)
    (hsmall : ∀ e, e.p < 1e-20 → W e = 0) (hmin : ∀ e, 0 ≤ e.p → e.p < h.minP → W e = 0)
    (hstep : ∀ n k e k' l, interactM1 tol par h (us n) k e = .ok (k', l) →
      Φ (n + 1) k' + (l.map W).sum = Φ n k + W e)
    {k k' : K} {n n' : Nat} {ev : Ev} {evts : List Ev} {c : IType}
    (hh : interactMPath1 tol par h us k n ev = .ok (k', n', evts, c)) :
    Φ n' k' + (evts.map W).sum = Φ n k + W ev := by
  simp only [interactMPath1, bind, Except.bind] at hh
  split at hh
  · simp at hh
  · next x hx =>
    obtain ⟨k1, n1, out, left⟩ := x
    simp only [Except.ok.injEq, Prod.mk.injEq] at hh
    obtain ⟨rfl, rfl, rfl, _⟩ := hh
    have hs : ∀ e : Ev, e.p < minimumP → W e = 0 := fun e he => hsmall e (by
      unfold minimumP at he; norm_num at he ⊢; exact he)
    obtain ⟨h1, _⟩ := scatterLoop_sum hs hmin hstep hx
    simp only [List.map_cons, List.map_nil, List.sum_cons, List.sum_nil, add_zero] at h1
    rw [List.map_append, List.sum_append]; linarith

/-- **C101** Unless no loop is allowed, every neutron that is returned has at least the probability 1e-20,
and one that is still inside of the shape was cut off only after at least as many interactions as loops are
allowed. -/
theorem C101_outside (tol par : ℝ) (h : Scat K) (us : Nat → ℝ) (hm : 0 < h.maxLoops)
    {k k' : K} {n n' : Nat} {ev : Ev} {evts : List Ev} {c : IType}
    (hh : interactMPath1 tol par h us k n ev = .ok (k', n', evts, c)) :
    ∀ e ∈ evts, 1e-20 ≤ e.p ∧ ∃ loc, locate tol h.shape e.r = .ok loc ∧
      (loc = .inside → n + h.maxLoops ≤ n') := by
  simp only [interactMPath1, bind, Except.bind] at hh
  split at hh
  · simp at hh
  · next x hx =>
    obtain ⟨k1, n1, out, left⟩ := x
    simp only [Except.ok.injEq, Prod.mk.injEq] at hh
    obtain ⟨rfl, rfl, rfl, _⟩ := hh
    obtain ⟨_, h2, h3⟩ := scatterLoop_sum (W := fun _ => 0) (Φ := fun _ _ => 0) (by simp) (by simp) (by simp) hx
    have e0 : (1e-20 : ℝ) = minimumP := by unfold minimumP; norm_num
    rw [e0]
    intro e he
    rcases List.mem_append.1 he with he | he
    · obtain ⟨a, loc, b, c⟩ := h2 e he; exact ⟨a, loc, b, fun hc => absurd hc c⟩
    · obtain ⟨a, b⟩ := h3 hm e he
      exact ⟨a, _, b, fun _ => scatterLoop_count hx (List.ne_nil_of_mem he)⟩

/-- a ball that neutrons pass without anything happening to them -/
noncomputable def clear : Scat Unit where
  shape := .sphere 1
  wT := 1
  wA := 1
  wS := 1
  packing := 1 / 2
  mu0 := fun _ => 0
  sigma0 := fun _ => 0
  kscatter := fun k e => .ok (k, { e with p := 0 })
  kabsorb := fun k _ => .ok k
  maxLoops := 3
  minP := 0

open Classical in
/-- the hypotheses of `C101_ledger` and `C101_outside` can be met: the weight of a neutron in a ball that
does nothing, with a run that returns a neutron -/
example : (∀ e : Ev, e.p < 1e-20 → (if e.p < 1e-20 then 0 else e.p) = 0) ∧
    (∀ e : Ev, 0 ≤ e.p → e.p < clear.minP → (if e.p < 1e-20 then 0 else e.p) = 0) ∧
    (∀ (n : Nat) (k : Unit) (e : Ev) (k' : Unit) (l : List Ev),
      interactM1 (1 / 1000) (1 / 1000) clear 0 k e = .ok (k', l) →
      (0 : ℝ) + (l.map fun e => if e.p < 1e-20 then 0 else e.p).sum = 0 + if e.p < 1e-20 then 0 else e.p) ∧
    ∃ e : Ev, e.p = 1 ∧ interactMPath1 (1 / 1000) (1 / 1000) clear (fun _ => 0) () 0 inner =
      .ok ((), 1, [e], .scattering) := by
  refine ⟨fun e he => by rw [if_pos he], fun e h1 h2 => ?_, ?_, ?_⟩
  · simp only [clear] at h2; linarith
  · intro n k e k' l hh
    simp only [interactM1, bind, Except.bind] at hh
    split at hh
    · simp at hh
    · next x hx =>
      obtain ⟨ev1, d⟩ := x
      obtain ⟨⟨τ, _, hf⟩, _⟩ := enter_cases hx
      simp only at hh
      split at hh
      · simp at hh
      · next out hout =>
        obtain ⟨τ', hf'⟩ := toExit_flies hout
        simp only [clear, Scat.mu, Scat.sigma, Except.ok.injEq, Prod.mk.injEq] at hh
        obtain ⟨_, rfl⟩ := hh
        have hp : out.p = e.p := by
          have h1 := hf.2.2.2.2.2; have h2 := hf'.2.2.2.2.2.2; exact h2.trans h1
        simp [hp]
  · have ht := (tofBeforeExit_toExit inner_tof).2
    have he : enter (1 / 1000) (1 / 1000) clear inner = .ok (inner, 1 / 2 * length inner.v) :=
      enter_of_inside inner_locate inner_tof
    have hM : interactM1 (1 / 1000) (1 / 1000) clear 0 () inner = .ok ((), [propagate inner (1 / 2),
        { propagate { inner with p := 0 } 0 with p := 0 }]) := by
      unfold interactM1
      rw [he]
      have ht' : toExit (1 / 1000) (1 / 1000) clear.shape inner = .ok (propagate inner (1 / 2)) := ht
      simp only [bind, Except.bind, ht']
      simp [clear, Scat.mu, Scat.sigma, propagate, random]
    have hloc : locate (1 / 1000) clear.shape (propagate inner (1 / 2)).r = .ok .onborder := by
      norm_num [locate, clear, locSphere, inner, propagate, at', V3.dot]
    have hsort : sortOut (1 / 1000) clear.shape [propagate inner (1 / 2),
        { propagate { inner with p := 0 } 0 with p := 0 }] = .ok ([propagate inner (1 / 2)], []) := by
      simp only [sortOut, bind, Except.bind, hloc]
      norm_num [minimumP, propagate, inner]
      exact fun h => by cases h
    refine ⟨propagate inner (1 / 2), rfl, ?_⟩
    have hl : scatterList (1 / 1000) (1 / 1000) clear (fun _ => 0) [inner] () 0 =
        .ok ((), 1, [propagate inner (1 / 2)], []) := by
      simp only [scatterList, bind, Except.bind, hM, hsort]
      norm_num [inner, clear]
    have hmax : clear.maxLoops = 2 + 1 := rfl
    simp only [interactMPath1, bind, Except.bind, hmax, scatterLoop, hl]
    simp

/-! ### C102 the packing factor -/

/-- **C102** A packing factor is the same as a material with all coefficients smaller by this factor, for
both modes and for the attenuation. -/
theorem C102_packing (tol par : ℝ) (h : Scat K) :
    (∀ u1 u2 k ev, interactPath1 tol par h u1 u2 k ev = interactPath1 tol par (dilute h) u1 u2 k ev) ∧
    (∀ us k n ev, interactMPath1 tol par h us k n ev = interactMPath1 tol par (dilute h) us k n ev) ∧
    (∀ ev q, h.atten tol par ev q = (dilute h).atten tol par ev q) := by
  refine ⟨fun u1 u2 k ev => (interactPath1_dilute tol par h u1 u2 k ev).symm, fun us k n ev => ?_, fun ev q => ?_⟩
  · simp only [interactMPath1, scatterLoop_dilute, show (dilute h).maxLoops = h.maxLoops from rfl]
  · simp [Scat.atten, Scat.mu, Scat.sigma, dilute]

/-- a packing factor that makes a difference -/
example : ball.packing = 1 / 2 ∧ (dilute ball).packing = 1 ∧ (dilute ball).mu0 inner = 1 ∧
    (dilute ball).mu inner = ball.mu inner := by
  norm_num [ball, dilute, Scat.mu]

end Verif.Homog
