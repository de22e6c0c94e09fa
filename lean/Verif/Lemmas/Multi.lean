import Verif.Lemmas.Homog
import Verif.Spec.Multi
/-!
Lemmas about the multiple scattering mode.
-/

namespace Verif.Homog
open Solid Flight
variable {K : Type}

theorem interactM1_dilute (tol par : ℝ) (h : Scat K) (u : ℝ) (k : K) (ev : Ev) :
    interactM1 tol par (dilute h) u k ev = interactM1 tol par h u k ev := by
  unfold interactM1
  rw [show enter tol par (dilute h) ev = enter tol par h ev from rfl]
  rcases enter tol par h ev with e | ⟨ev1, d⟩
  · rfl
  · simp only [bind, Except.bind]
    have hmu : (dilute h).mu = h.mu := by funext e; simp [Scat.mu, dilute]
    have hsi : (dilute h).sigma = h.sigma := by funext e; simp [Scat.sigma, dilute]
    rw [hmu, hsi, show (dilute h).shape = h.shape from rfl, show (dilute h).kabsorb = h.kabsorb from rfl,
      show (dilute h).packing = 1 from rfl]
    rcases toExit tol par h.shape ev1 with e | out
    · rfl
    · simp only
      split
      · rfl
      · next k1 _ =>
        simp only [dilute]
        split
        · next hx => split at hx <;> simp_all
        · next hx =>
          split at hx
          · next hk =>
            rw [hk]
            simp only [Except.ok.injEq] at hx
            subst hx
            simp
          · simp at hx

theorem interactPath1_dilute (tol par : ℝ) (h : Scat K) (u1 u2 : ℝ) (k : K) (ev : Ev) :
    interactPath1 tol par (dilute h) u1 u2 k ev = interactPath1 tol par h u1 u2 k ev := by
  unfold interactPath1
  rw [show enter tol par (dilute h) ev = enter tol par h ev from rfl]
  rcases enter tol par h ev with e | ⟨ev1, d⟩
  · rfl
  · simp only [bind, Except.bind]
    have hmu : (dilute h).mu = h.mu := by funext e; simp [Scat.mu, dilute]
    have hsi : (dilute h).sigma = h.sigma := by funext e; simp [Scat.sigma, dilute]
    have hpk : (dilute h).pick = h.pick := by
      funext u c e d
      unfold Scat.pick
      rw [hmu, hsi]
      rfl
    have hat : (dilute h).atten tol par = h.atten tol par := by
      funext e q
      unfold Scat.atten
      rw [hmu, hsi]
      rfl
    rw [hpk, hat, show (dilute h).channel = h.channel from rfl, show (dilute h).sum = h.sum from rfl,
      show (dilute h).shape = h.shape from rfl, show (dilute h).kabsorb = h.kabsorb from rfl,
      show (dilute h).packing = 1 from rfl]
    cases hc : h.channel (random u1 0 h.sum)
    · rfl
    · simp only
      have : (dilute h).kscatter k (h.pick u2 .scattering ev1 d) =
          match h.kscatter k (h.pick u2 .scattering ev1 d) with
          | .ok (k', e') => .ok (k', { e' with p := e'.p * h.packing })
          | .error x => .error x := rfl
      rw [this]
      rcases h.kscatter k (h.pick u2 .scattering ev1 d) with e | ⟨k', e'⟩
      · rfl
      · simp
    · rfl

theorem scatterList_dilute (tol par : ℝ) (h : Scat K) (us : Nat → ℝ) : ∀ (l : List Ev) (k : K) (n : Nat),
    scatterList tol par (dilute h) us l k n = scatterList tol par h us l k n
  | [], _, _ => rfl
  | e :: es, k, n => by
    simp only [scatterList, interactM1_dilute, scatterList_dilute tol par h us es,
      show (dilute h).minP = h.minP from rfl, show (dilute h).shape = h.shape from rfl]

theorem scatterLoop_dilute (tol par : ℝ) (h : Scat K) (us : Nat → ℝ) : ∀ (m : Nat) (l : List Ev) (k : K) (n : Nat),
    scatterLoop tol par (dilute h) us m l k n = scatterLoop tol par h us m l k n
  | 0, _, _, _ => rfl
  | _ + 1, [], _, _ => rfl
  | m + 1, e :: es, k, n => by
    simp only [scatterLoop, scatterList_dilute, scatterLoop_dilute tol par h us m]

theorem sortOut_sum {tol : ℝ} {s : Shape} {W : Ev → ℝ} (hsmall : ∀ e, e.p < minimumP → W e = 0) :
    ∀ {l out rest : List Ev}, sortOut tol s l = .ok (out, rest) →
      (out.map W).sum + (rest.map W).sum = (l.map W).sum ∧
      (∀ e ∈ out, e ∈ l ∧ minimumP ≤ e.p ∧ ∃ loc, locate tol s e.r = .ok loc ∧ loc ≠ .inside) ∧
      (∀ e ∈ rest, e ∈ l ∧ minimumP ≤ e.p ∧ locate tol s e.r = .ok .inside)
  | [], out, rest, h => by
    simp only [sortOut, Except.ok.injEq, Prod.mk.injEq] at h
    obtain ⟨rfl, rfl⟩ := h
    simp
  | e :: es, out, rest, h => by
    simp only [sortOut, bind, Except.bind] at h
    split at h
    · simp at h
    · next x hx =>
      obtain ⟨o, r⟩ := x
      obtain ⟨h1, h2, h3⟩ := sortOut_sum hsmall hx
      have h2' : ∀ e' ∈ o, e' ∈ e :: es ∧ minimumP ≤ e'.p ∧ ∃ loc, locate tol s e'.r = .ok loc ∧ loc ≠ .inside :=
        fun e' he => ⟨List.mem_cons_of_mem _ (h2 e' he).1, (h2 e' he).2⟩
      have h3' : ∀ e' ∈ r, e' ∈ e :: es ∧ minimumP ≤ e'.p ∧ locate tol s e'.r = .ok .inside :=
        fun e' he => ⟨List.mem_cons_of_mem _ (h3 e' he).1, (h3 e' he).2⟩
      simp only at h
      split at h
      · next hp =>
        simp only [Except.ok.injEq, Prod.mk.injEq] at h
        obtain ⟨rfl, rfl⟩ := h
        refine ⟨?_, h2', h3'⟩
        rw [List.map_cons, List.sum_cons, hsmall e hp]; linarith
      · next hp =>
        split at h
        · simp at h
        · next loc hloc =>
          split at h
          · next hin =>
            simp only [Except.ok.injEq, Prod.mk.injEq] at h
            obtain ⟨rfl, rfl⟩ := h
            refine ⟨?_, ?_, h3'⟩
            · simp only [List.map_cons, List.sum_cons]; linarith
            · intro e' he
              rcases List.mem_cons.1 he with rfl | he
              · exact ⟨List.mem_cons_self, not_lt.1 hp, loc, hloc, hin⟩
              · exact h2' e' he
          · next hin =>
            simp only [Except.ok.injEq, Prod.mk.injEq] at h
            obtain ⟨rfl, rfl⟩ := h
            refine ⟨?_, h2', ?_⟩
            · simp only [List.map_cons, List.sum_cons]; linarith
            · intro e' he
              rcases List.mem_cons.1 he with rfl | he
              · refine ⟨List.mem_cons_self, not_lt.1 hp, ?_⟩
                rw [hloc, not_not.1 hin]
              · exact h3' e' he

variable {tol par : ℝ} {h : Scat K} {us : Nat → ℝ} {W : Ev → ℝ} {Φ : Nat → K → ℝ}

theorem scatterList_sum (hsmall : ∀ e, e.p < minimumP → W e = 0) (hmin : ∀ e, 0 ≤ e.p → e.p < h.minP → W e = 0)
    (hstep : ∀ n k e k' l, interactM1 tol par h (us n) k e = .ok (k', l) →
      Φ (n + 1) k' + (l.map W).sum = Φ n k + W e) :
    ∀ {l : List Ev} {k k' : K} {n n' : Nat} {out rest : List Ev},
      scatterList tol par h us l k n = .ok (k', n', out, rest) →
      Φ n' k' + (out.map W).sum + (rest.map W).sum = Φ n k + (l.map W).sum ∧
      (∀ e ∈ out, minimumP ≤ e.p ∧ ∃ loc, locate tol h.shape e.r = .ok loc ∧ loc ≠ .inside) ∧
      (∀ e ∈ rest, minimumP ≤ e.p ∧ locate tol h.shape e.r = .ok .inside)
  | [], k, k', n, n', out, rest, hh => by
    simp only [scatterList, Except.ok.injEq, Prod.mk.injEq] at hh
    obtain ⟨rfl, rfl, rfl, rfl⟩ := hh
    simp
  | e :: es, k, k', n, n', out, rest, hh => by
    simp only [scatterList, bind, Except.bind] at hh
    split at hh
    · next hp =>
      obtain ⟨h1, h2, h3⟩ := scatterList_sum hsmall hmin hstep hh
      refine ⟨?_, h2, h3⟩
      rw [h1, List.map_cons, List.sum_cons, hmin e hp.1 hp.2]; ring
    · split at hh
      · simp at hh
      · next x hx =>
        obtain ⟨k1, l⟩ := x
        simp only at hh
        split at hh
        · simp at hh
        · next y hy =>
          obtain ⟨o, r⟩ := y
          simp only at hh
          split at hh
          · simp at hh
          · next z hz =>
            obtain ⟨k2, n2, o2, r2⟩ := z
            simp only [Except.ok.injEq, Prod.mk.injEq] at hh
            obtain ⟨rfl, rfl, rfl, rfl⟩ := hh
            obtain ⟨a1, a2, a3⟩ := sortOut_sum hsmall hy
            obtain ⟨b1, b2, b3⟩ := scatterList_sum hsmall hmin hstep hz
            have c1 := hstep n k e k1 l hx
            refine ⟨?_, ?_, ?_⟩
            · simp only [List.map_append, List.sum_append, List.map_cons, List.sum_cons]
              linarith
            · intro e' he
              rcases List.mem_append.1 he with he | he
              · exact (a2 e' he).2
              · exact b2 e' he
            · intro e' he
              rcases List.mem_append.1 he with he | he
              · exact (a3 e' he).2
              · exact b3 e' he

theorem scatterLoop_sum (hsmall : ∀ e, e.p < minimumP → W e = 0) (hmin : ∀ e, 0 ≤ e.p → e.p < h.minP → W e = 0)
    (hstep : ∀ n k e k' l, interactM1 tol par h (us n) k e = .ok (k', l) →
      Φ (n + 1) k' + (l.map W).sum = Φ n k + W e) :
    ∀ {m : Nat} {l : List Ev} {k k' : K} {n n' : Nat} {out left : List Ev},
      scatterLoop tol par h us m l k n = .ok (k', n', out, left) →
      Φ n' k' + (out.map W).sum + (left.map W).sum = Φ n k + (l.map W).sum ∧
      (∀ e ∈ out, minimumP ≤ e.p ∧ ∃ loc, locate tol h.shape e.r = .ok loc ∧ loc ≠ .inside) ∧
      (0 < m → ∀ e ∈ left, minimumP ≤ e.p ∧ locate tol h.shape e.r = .ok .inside)
  | 0, l, k, k', n, n', out, left, hh => by
    simp only [scatterLoop, Except.ok.injEq, Prod.mk.injEq] at hh
    obtain ⟨rfl, rfl, rfl, rfl⟩ := hh
    simp
  | m + 1, [], k, k', n, n', out, left, hh => by
    simp only [scatterLoop, Except.ok.injEq, Prod.mk.injEq] at hh
    obtain ⟨rfl, rfl, rfl, rfl⟩ := hh
    simp
  | m + 1, e :: es, k, k', n, n', out, left, hh => by
    simp only [scatterLoop, bind, Except.bind] at hh
    split at hh
    · simp at hh
    · next x hx =>
      obtain ⟨k1, n1, o, r⟩ := x
      simp only at hh
      split at hh
      · simp at hh
      · next y hy =>
        obtain ⟨k2, n2, o2, l2⟩ := y
        simp only [Except.ok.injEq, Prod.mk.injEq] at hh
        obtain ⟨rfl, rfl, rfl, rfl⟩ := hh
        obtain ⟨a1, a2, a3⟩ := scatterList_sum hsmall hmin hstep hx
        obtain ⟨b1, b2, b3⟩ := scatterLoop_sum hsmall hmin hstep hy
        refine ⟨?_, ?_, fun _ => ?_⟩
        · simp only [List.map_append, List.sum_append]
          linarith
        · intro e' he
          rcases List.mem_append.1 he with he | he
          · exact a2 e' he
          · exact b2 e' he
        · rcases Nat.eq_zero_or_pos m with rfl | hm
          · simp only [scatterLoop, Except.ok.injEq, Prod.mk.injEq] at hy
            obtain ⟨_, _, _, rfl⟩ := hy
            exact a3
          · exact b3 hm

theorem scatterList_count : ∀ {l : List Ev} {k k' : K} {n n' : Nat} {out rest : List Ev},
    scatterList tol par h us l k n = .ok (k', n', out, rest) → n ≤ n' ∧ (rest ≠ [] → n < n')
  | [], k, k', n, n', out, rest, hh => by
    simp only [scatterList, Except.ok.injEq, Prod.mk.injEq] at hh
    obtain ⟨rfl, rfl, rfl, rfl⟩ := hh
    simp
  | e :: es, k, k', n, n', out, rest, hh => by
    simp only [scatterList, bind, Except.bind] at hh
    split at hh
    · exact scatterList_count hh
    · split at hh
      · simp at hh
      · split at hh
        · simp at hh
        · split at hh
          · simp at hh
          · next z hz =>
            obtain ⟨k2, n2, o2, r2⟩ := z
            simp only [Except.ok.injEq, Prod.mk.injEq] at hh
            obtain ⟨rfl, rfl, rfl, rfl⟩ := hh
            have := (scatterList_count hz).1
            exact ⟨by omega, fun _ => by omega⟩

theorem scatterLoop_count : ∀ {m : Nat} {l : List Ev} {k k' : K} {n n' : Nat} {out left : List Ev},
    scatterLoop tol par h us m l k n = .ok (k', n', out, left) → left ≠ [] → n + m ≤ n'
  | 0, l, k, k', n, n', out, left, hh, _ => by
    simp only [scatterLoop, Except.ok.injEq, Prod.mk.injEq] at hh
    omega
  | m + 1, [], k, k', n, n', out, left, hh, hl => by
    simp only [scatterLoop, Except.ok.injEq, Prod.mk.injEq] at hh
    exact absurd hh.2.2.2.symm hl
  | m + 1, e :: es, k, k', n, n', out, left, hh, hl => by
    simp only [scatterLoop, bind, Except.bind] at hh
    split at hh
    · simp at hh
    · next x hx =>
      obtain ⟨k1, n1, o, r⟩ := x
      simp only at hh
      split at hh
      · simp at hh
      · next y hy =>
        obtain ⟨k2, n2, o2, l2⟩ := y
        simp only [Except.ok.injEq, Prod.mk.injEq] at hh
        obtain ⟨rfl, rfl, rfl, rfl⟩ := hh
        have h1 := scatterLoop_count hy hl
        have h2 : r ≠ [] := by
          rintro rfl
          cases m with
          | zero => simp only [scatterLoop, Except.ok.injEq, Prod.mk.injEq] at hy; exact hl hy.2.2.2.symm
          | succ m => simp only [scatterLoop, Except.ok.injEq, Prod.mk.injEq] at hy; exact hl hy.2.2.2.symm
        have h3 := (scatterList_count hx).2 h2
        omega

end Verif.Homog
