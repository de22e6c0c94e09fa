import Verif.Spec.Exchange
import Verif.Lemmas.Kinem
/-!
Lemmas about the exchange of neutrons with other programs.
-/

namespace Verif.Exchange
open Solid Flight Homog Kinem

theorem toParticle_ok {ev : Event ℝ} (h : ev.v ≠ 0) : toParticle ev = some {
    position := ⟨ev.r.x * 100, ev.r.y * 100, ev.r.z * 100⟩
    ekin := v2E (length ev.v) / 1e9
    direction := ⟨ev.v.x / length ev.v, ev.v.y / length ev.v, ev.v.z / length ev.v⟩
    polarisation := spinDir ev.s1 ev.s2
    time := ev.t * 1e3
    weight := ev.p } := by
  have := (Kinem.length_pos h).ne'
  simp [toParticle, divD_ok this, spinDir]

theorem toParticle_rest {ev : Event ℝ} (h : ev.v = 0) : toParticle ev = none := by
  have : length ev.v = 0 := by
    have := Kinem.length_mul_self ev.v
    rw [h] at this ⊢
    have h0 : (0 : V3 ℝ).dot 0 = 0 := by simp [V3.dot]
    rw [h0] at this
    exact mul_self_eq_zero.1 this
  simp [toParticle, this, divD]

theorem spinDir_len (a b : ℝ) : (spinDir a b).x * (spinDir a b).x + (spinDir a b).y * (spinDir a b).y +
    (spinDir a b).z * (spinDir a b).z = 1 := by
  have h1 := Real.sin_sq_add_cos_sq a
  have h2 := Real.sin_sq_add_cos_sq b
  simp only [spinDir]
  linear_combination h1 + Real.sin a ^ 2 * h2

/-- the angles computed from a vector describe its direction -/
theorem spinDir_angles {P : V3 ℝ} (h : P.x * P.x + P.y * P.y + P.z * P.z = 1) :
    spinDir (Real.arccos P.y) (arctan2 P.x P.z) = P := by
  have hy1 : -1 ≤ P.y := by nlinarith [mul_self_nonneg P.x, mul_self_nonneg P.z]
  have hy2 : P.y ≤ 1 := by nlinarith [mul_self_nonneg P.x, mul_self_nonneg P.z]
  have hs : Real.sin (Real.arccos P.y) = √(P.z ^ 2 + P.x ^ 2) := by
    rw [Real.sin_arccos]; congr 1; linear_combination -h
  have hn : ‖(⟨P.z, P.x⟩ : ℂ)‖ = √(P.z ^ 2 + P.x ^ 2) := by
    rw [Complex.norm_def, Complex.normSq_mk]; congr 1; ring
  have e1 := Complex.norm_mul_sin_arg (⟨P.z, P.x⟩ : ℂ)
  have e2 := Complex.norm_mul_cos_arg (⟨P.z, P.x⟩ : ℂ)
  rw [hn] at e1 e2
  simp only [spinDir, arctan2, hs, Real.cos_arccos hy1 hy2]
  rw [e1, e2]

theorem angles_spinDir {s1 s2 : ℝ} (h : Canonical s1 s2) :
    Real.arccos (spinDir s1 s2).y = s1 ∧ arctan2 (spinDir s1 s2).x (spinDir s1 s2).z = s2 := by
  rcases h with ⟨h1, h2, h3, h4⟩ | ⟨h1, h2⟩
  · refine ⟨Real.arccos_cos h1.le h2.le, ?_⟩
    have hp := Real.sin_pos_of_pos_of_lt_pi h1 h2
    have := Complex.arg_mul_cos_add_sin_mul_I hp (θ := s2) ⟨h3, h4⟩
    refine Eq.trans ?_ this
    simp only [arctan2, spinDir]
    congr 1
    apply Complex.ext <;> simp [Complex.cos_ofReal_re, Complex.sin_ofReal_re]
  · subst h2
    rcases h1 with rfl | rfl
    · simp [spinDir, arctan2]
      exact Complex.arg_zero
    · simp [spinDir, arctan2]
      exact Complex.arg_zero

theorem fromParticle_ok {p : Particle} {w : ℝ} (hw : 0 ≤ w) (he : p.ekin = v2E w / 1e9)
    (hp : p.polarisation.x * p.polarisation.x + p.polarisation.y * p.polarisation.y +
      p.polarisation.z * p.polarisation.z = 1) :
    fromParticle p = some {
      r := ⟨p.position.x / 100, p.position.y / 100, p.position.z / 100⟩
      v := ⟨w * p.direction.x, w * p.direction.y, w * p.direction.z⟩
      s1 := Real.arccos p.polarisation.y
      s2 := arctan2 p.polarisation.x p.polarisation.z
      t := p.time / 1e3
      p := p.weight } := by
  have e : p.ekin * 1e9 = v2E w := by rw [he, div_mul_cancel₀ _ (by norm_num)]
  simp [fromParticle, e, E2v_v2E hw, hp]

/-- one neutron there and back -/
theorem there_back {ev : Event ℝ} (h : ev.v ≠ 0) : (toParticle ev).bind fromParticle =
    some { ev with s1 := Real.arccos (spinDir ev.s1 ev.s2).y, s2 := arctan2 (spinDir ev.s1 ev.s2).x (spinDir ev.s1 ev.s2).z } := by
  have hl := (Kinem.length_pos h).ne'
  rw [toParticle_ok h, Option.bind_some, fromParticle_ok (Kinem.length_nonneg ev.v) rfl (spinDir_len _ _)]
  simp only [Option.some.injEq]
  ext <;> simp <;> field_simp

theorem mapM_ok {evs : List (Event ℝ)} (h : ∀ ev ∈ evs, ev.v ≠ 0) {g : Event ℝ → Event ℝ}
    (hg : ∀ ev ∈ evs, (toParticle ev).bind fromParticle = some (g ev)) :
    ∃ ps, writeMcpl evs = some ps ∧ ps.map fromParticle = evs.map (fun ev => some (g ev)) ∧ ps.length = evs.length ∧
      ps.map Particle.weight = evs.map Event.p := by
  induction evs with
  | nil => exact ⟨[], rfl, rfl, rfl, rfl⟩
  | cons e es ih =>
    obtain ⟨ps, h1, h2, h3, h4⟩ := ih (fun ev hm => h ev (List.mem_cons_of_mem _ hm))
      (fun ev hm => hg ev (List.mem_cons_of_mem _ hm))
    have hb := hg e List.mem_cons_self
    obtain ⟨q, he, hq⟩ : ∃ q, toParticle e = some q ∧ q.weight = e.p := ⟨_, toParticle_ok (h e List.mem_cons_self), rfl⟩
    rw [he, Option.bind_some] at hb
    refine ⟨q :: ps, ?_, ?_, ?_, ?_⟩
    · rw [writeMcpl] at h1 ⊢
      rw [List.mapM_cons, he, h1]; rfl
    · rw [List.map_cons, List.map_cons, h2, hb]
    · simp [h3]
    · simp [h4, hq]

theorem chunkN_flatten {α} (k : ℕ) : ∀ (m : ℕ) (l : List α), l.length ≤ m * k → (Idf.chunkN k m l).flatten = l
  | 0, l, h => by
    have : l = [] := List.length_eq_zero_iff.1 (by omega)
    rw [this]; rfl
  | m + 1, l, h => by
    rw [Idf.chunkN, List.flatten_cons, chunkN_flatten k m (l.drop k), List.take_append_drop]
    rw [List.length_drop]; rw [Nat.succ_mul] at h; omega

theorem blocks_flatten {k : ℕ} (hk : 0 < k) (ps : List Particle) : (blocks k ps).flatten = ps := by
  apply chunkN_flatten
  have := Nat.div_add_mod (ps.length + (k - 1)) k
  have h2 := Nat.mod_lt (ps.length + (k - 1)) hk
  rw [Nat.mul_comm]
  omega

theorem blocks_ne {k : ℕ} (hk : 0 < k) {ps : List Particle} (h : ps ≠ []) : (blocks k ps).isEmpty = false := by
  rcases hb : blocks k ps with _ | ⟨a, l⟩
  · have := blocks_flatten hk ps
    rw [hb] at this
    exact absurd this.symm h
  · rfl

theorem flatten_map_map {α β} (g : α → β) (bs : List (List α)) : (bs.map fun pb => pb.map g).flatten = bs.flatten.map g := by
  rw [List.map_flatten]

theorem mcpl2mcv_ok {k : ℕ} (hk : 0 < k) {ps : List Particle} (h : ps ≠ []) (scale : Bool) :
    mcpl2mcv (blocks k ps) scale = .ok (ps.map fun p => (fromParticle p).map fun ev =>
      if scale then { ev with p := ev.p * ps.length } else ev) := by
  simp only [mcpl2mcv, blocks_ne hk h, flatten_map_map, blocks_flatten hk]
  cases scale <;> simp

end Verif.Exchange
