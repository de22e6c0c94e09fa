import Verif.Lemmas.Sources
/-!
Properties of the test sources and the radial collimator (C157-C159).
-/

namespace Verif.Sources
open Solid Flight Homog Kinem Exchange

/-- C157: a neutron that starts within the inner cylinder passes the collimator if and only if it goes through both
windows, between the first and the last blade, and hits no blade on its way; here all blades, turned by the oscillation, are
less than half a turn from the beam -/
theorem C157_collimator_partial {c : Collimator} {u : ℝ} {ev : Event ℝ} (h : Starts c ev) (hp : c.blades.Proper)
    (hlo : -Real.pi ≤ c.blades.min - c.oscillation * u) (hhi : c.blades.max - c.oscillation * u ≤ Real.pi)
    (hedge : NotOnEdge c (c.oscillation * u) ev) :
    c.good u ev = true ↔ Within c ev ∧ InSector c (c.oscillation * u) ev ∧ ¬ Hits c (c.oscillation * u) ev := by
  apply good_iff h _ hlo hhi hedge
  cases hb : c.blades with
  | even a b d => rw [hb] at hp; exact numbers_even hp
  | list l => rw [hb] at hp; exact numbers_list hp

/-- a collimator with channels of a quarter turn, all around -/
noncomputable def col : Collimator := ⟨1, 1, 2, 1, .even (-Real.pi) Real.pi (Real.pi / 2), 0⟩

/-- a neutron flying at an eighth of a turn from the beam -/
def ray : Event ℝ := ⟨⟨0, 0, 0⟩, ⟨1, 0, 1⟩, 0, 0, 0, 1⟩

theorem ray_starts : Starts col ray := by
  constructor <;> norm_num [col, ray, dist2]

theorem ray_on {a t : ℝ} (h : OnRay a (track ray t)) : Real.cos a = Real.sin a ∧ Real.cos a ≠ 0 := by
  obtain ⟨rho, hr, hx, hy⟩ := h
  simp only [track, ray, zero_add, one_mul] at hx hy
  have e : Real.cos a = Real.sin a := mul_left_cancel₀ hr.ne' (hx.symm.trans hy)
  refine ⟨e, fun h0 => ?_⟩
  have := Real.sin_sq_add_cos_sq a
  rw [← e, h0] at this; norm_num at this

/-- no blade of `col` is at the angle of the neutron -/
theorem ray_free {t : ℝ} {b : ℝ} (hb : b ∈ col.blades.angles) : ¬ OnRay (b - 0) (track ray t) := by
  intro h
  obtain ⟨e, h0⟩ := ray_on h
  obtain ⟨j, rfl, -⟩ := hb
  have h2 : Real.sin (2 * (-Real.pi + j * (Real.pi / 2) - 0)) = 0 := by
    have : 2 * (-Real.pi + j * (Real.pi / 2) - 0) = ((j : ℤ) - 2 : ℤ) * Real.pi := by push_cast; ring
    rw [this, Real.sin_int_mul_pi]
  rw [Real.sin_two_mul, ← e] at h2
  have : Real.cos (-Real.pi + j * (Real.pi / 2) - 0) * Real.cos (-Real.pi + j * (Real.pi / 2) - 0) = 0 := by linarith
  exact h0 (mul_self_eq_zero.1 this)

/-- the hypotheses of `C157_collimator_partial` can be met, by a neutron that passes -/
example : col.good 0 ray = true := by
  have hpi := Real.pi_pos
  have ho : col.oscillation * 0 = 0 := by norm_num [col]
  refine (C157_collimator_partial ray_starts ⟨by linarith, by linarith, by linarith⟩ ?_ ?_ ?_).2 ⟨?_, ?_, ?_⟩
  · simp [col, Blades.min]
  · simp [col, Blades.max]
  · intro t _ _ b hb; rw [ho]; exact ray_free hb
  · intro t _; norm_num [heightAt, ray, col]
  · intro t ht _
    have ht' : 0 < dist2 (track ray t) := by
      rename_i hor
      rcases hor with he | he <;> rw [he] <;> norm_num [col]
    have t0 : 0 < t := by
      refine lt_of_le_of_ne ht fun h => ?_
      rw [← h] at ht'; norm_num [dist2, track, ray] at ht'
    refine ⟨Real.pi / 4, ⟨t * √2, by positivity, ?_, ?_⟩, by simp only [col, Blades.min]; linarith, by simp only [col, Blades.max]; linarith⟩
    · rw [ho, sub_zero, Real.cos_pi_div_four]
      have := Real.mul_self_sqrt (show (0 : ℝ) ≤ 2 by norm_num)
      simp only [track, ray]; linear_combination (-t / 2) * this
    · rw [ho, sub_zero, Real.sin_pi_div_four]
      have := Real.mul_self_sqrt (show (0 : ℝ) ≤ 2 by norm_num)
      simp only [track, ray]; linear_combination (-t / 2) * this
  · rintro ⟨t, _, _, _, b, hb, hr⟩
    rw [ho] at hr
    exact ray_free hb hr

/-- C157: also the neutrons let through are unchanged and in their order -/
theorem C157_order (c : Collimator) (ns : List (ℝ × Event ℝ)) :
    (c.process ns).Sublist (ns.map Prod.snd) := (List.filter_sublist).map _

/-- C157 is false for a collimator that reaches beyond half a turn from the beam: a neutron between two blades that hits
none is stopped -/
theorem C157_collimator_false : ∃ (c : Collimator) (ev : Event ℝ), Starts c ev ∧ c.blades.Proper ∧ c.oscillation = 0 ∧
    NotOnEdge c 0 ev ∧ Within c ev ∧ InSector c 0 ev ∧ ¬ Hits c 0 ev ∧ c.good 0 ev = false := by
  have hpi := Real.pi_pos
  -- blades at a half and three halves of pi, neutron at five quarters
  let c : Collimator := ⟨1, 1, 2, 1, .even (Real.pi / 2) (3 * Real.pi / 2) Real.pi, 0⟩
  let ev : Event ℝ := ⟨⟨0, 0, 0⟩, ⟨-1, 0, -1⟩, 0, 0, 0, 1⟩
  have hs : Starts c ev := by constructor <;> norm_num [c, ev, dist2]
  have free : ∀ t, ∀ b ∈ c.blades.angles, ¬ OnRay (b - 0) (track ev t) := by
    rintro t b ⟨j, rfl, hj⟩ ⟨rho, hr, hx, hy⟩
    have e : Real.cos (Real.pi / 2 + j * Real.pi - 0) = Real.sin (Real.pi / 2 + j * Real.pi - 0) := by
      refine mul_left_cancel₀ hr.ne' ?_
      rw [← hx, ← hy]; rfl
    have h1 : Real.cos (Real.pi / 2 + j * Real.pi - 0) = 0 := by
      rw [sub_zero, add_comm, Real.cos_add_pi_div_two, Real.sin_nat_mul_pi, neg_zero]
    have := Real.sin_sq_add_cos_sq (Real.pi / 2 + j * Real.pi - 0)
    rw [← e, h1] at this; norm_num at this
  have sector : InSector c 0 ev := by
    intro t ht hor
    have ht' : 0 < dist2 (track ev t) := by rcases hor with he | he <;> rw [he] <;> norm_num [c]
    have t0 : 0 < t := by
      refine lt_of_le_of_ne ht fun h => ?_
      rw [← h] at ht'; norm_num [dist2, track, ev] at ht'
    have := Real.mul_self_sqrt (show (0 : ℝ) ≤ 2 by norm_num)
    refine ⟨Real.pi / 4 + Real.pi, ⟨t * √2, by positivity, ?_, ?_⟩, by simp only [c, Blades.min]; linarith,
      by simp only [c, Blades.max]; linarith⟩
    · rw [sub_zero, Real.cos_add_pi, Real.cos_pi_div_four]
      simp only [track, ev]; linear_combination (t / 2) * this
    · rw [sub_zero, Real.sin_add_pi, Real.sin_pi_div_four]
      simp only [track, ev]; linear_combination (t / 2) * this
  refine ⟨c, ev, hs, ⟨by linarith, hpi, le_rfl⟩, rfl, fun t _ _ => free t, fun t _ => by norm_num [heightAt, ev, c], sector,
    ?_, ?_⟩
  · rintro ⟨t, _, _, _, b, hb, hr⟩; exact free t b hb hr
  · rw [← Bool.not_eq_true, good_eq hs]
    rintro ⟨-, -, ⟨hlo, -⟩, -⟩
    obtain ⟨t0, -, -, -⟩ := leave_spec hs.inside hs.moves
    have harg : arctan2 (track ev (leave ev c.radius1)).2 (track ev (leave ev c.radius1)).1 ≤ 0 := by
      apply le_of_lt
      simp only [arctan2, Complex.arg_neg_iff]
      simp only [track, ev]; linarith
    simp only [c, Blades.min] at hlo
    simp only [c] at harg
    linarith

/-- C158: every neutron of the source has lost the energy `E`, with a momentum transfer of length `Q` from a beam along z of
energy `Ei`, and starts at the time at which the beam arrives after the distance `L1` -/
theorem C158_cone {Q E Ei L1 : ℝ} {c : Cone} (h : Cone.new Q E Ei L1 = .ok c) (us : List ℝ) :
    ∃ vi : ℝ, 0 < vi ∧ energy ⟨0, 0, vi⟩ = Ei ∧ (c.process us).length = us.length ∧
      ∀ n ∈ c.process us, Ei - energy n.v = E ∧ n.r = 0 ∧ n.p = 1 ∧ n.t * vi = L1 ∧
        (wave ⟨0, 0, vi⟩ - wave n.v).dot (wave ⟨0, 0, vi⟩ - wave n.v) = Q ^ 2 := by
  unfold Cone.new at h
  cases h1 : E2v Ei with
  | none => simp [h1, e2k] at h
  | some vi =>
    cases h2 : E2v (Ei - E) with
    | none => simp [h1, h2, e2k] at h
    | some vf =>
      obtain ⟨n1, -⟩ := E2v_some h1
      obtain ⟨n2, -⟩ := E2v_some h2
      have en1 := energy_of_v h1
      have en2 := energy_of_v h2
      have vi0 : 0 ≤ vi := by rw [(E2v_some h1).2]; exact mul_nonneg (Real.sqrt_nonneg _) sqrte2v_pos.le
      simp only [h1, h2, e2k, Option.bind_eq_bind, Option.bind_some] at h
      split at h
      · split at h
        · cases h
        · rename_i hne
          push Not at hne
          obtain ⟨k1, k2, v1⟩ := hne
          split at h
          · cases h
          · rename_i hcos
            push Not at hcos
            injection h with h
            have vip : 0 < vi := lt_of_le_of_ne vi0 v1.symm
            have vfn : vf ≠ 0 := right_ne_zero_of_mul k2
            refine ⟨vi, vip, ?_, by simp [Cone.process], ?_⟩
            · rw [← en1]; simp [energy, V3.dot]
            · intro n hn
              obtain ⟨u, -, rfl⟩ := List.mem_map.1 hn
              subst h
              set C := (v2k * vi * (v2k * vi) + v2k * vf * (v2k * vf) - Q * Q) / 2 / (v2k * vi) / (v2k * vf) with hC
              have hcc : Real.cos (Real.arccos C) = C := Real.cos_arccos hcos.1 hcos.2
              have hsc := Real.sin_sq_add_cos_sq (Real.arccos C)
              have hsp := Real.sin_sq_add_cos_sq (u * 2 * Real.pi)
              have hCm : 2 * (v2k * vi) * (v2k * vf) * C = v2k * vi * (v2k * vi) + v2k * vf * (v2k * vf) - Q * Q := by
                have hk := v2k_pos.ne'
                rw [hC]; field_simp
              refine ⟨?_, rfl, rfl, div_mul_cancel₀ _ vip.ne', ?_⟩
              · simp only [Cone.emit, energy, V3.dot]
                linear_combination -en2 - vsq2e * vf ^ 2 * hsc - vsq2e * vf ^ 2 * Real.sin (Real.arccos C) ^ 2 * hsp
              · simp only [Cone.emit, wave, V3.dot, V3.sub_x, V3.sub_y, V3.sub_z, V3.smul_x, V3.smul_y, V3.smul_z]
                linear_combination v2k ^ 2 * vf ^ 2 * hsc + v2k ^ 2 * vf ^ 2 * Real.sin (Real.arccos C) ^ 2 * hsp - hCm
                  - 2 * v2k ^ 2 * vi * vf * hcc
      · cases h

/-- C158: the source can be made for every momentum and energy transfer that the kinematics allows -/
theorem C158_cone_exists {Q E Ei : ℝ} (L1 : ℝ) {ki kf : ℝ} (h1 : e2k Ei = some ki) (h2 : e2k (Ei - E) = some kf)
    (hlo : |kf - ki| < Q) (hhi : Q < ki + kf) : ∃ c, Cone.new Q E Ei L1 = .ok c := by
  obtain ⟨vi, hvi⟩ : ∃ vi, E2v Ei = some vi := by
    cases h : E2v Ei with
    | none => simp [e2k, h] at h1
    | some v => exact ⟨v, rfl⟩
  obtain ⟨vf, hvf⟩ : ∃ vf, E2v (Ei - E) = some vf := by
    cases h : E2v (Ei - E) with
    | none => simp [e2k, h] at h2
    | some v => exact ⟨v, rfl⟩
  have e1 : v2k * vi = ki := by simpa [e2k, hvi] using h1
  have e2 : v2k * vf = kf := by simpa [e2k, hvf] using h2
  have vi0 : 0 ≤ vi := by rw [(E2v_some hvi).2]; exact mul_nonneg (Real.sqrt_nonneg _) sqrte2v_pos.le
  have vf0 : 0 ≤ vf := by rw [(E2v_some hvf).2]; exact mul_nonneg (Real.sqrt_nonneg _) sqrte2v_pos.le
  have ki0 : 0 ≤ ki := by rw [← e1]; exact mul_nonneg v2k_pos.le vi0
  have kf0 : 0 ≤ kf := by rw [← e2]; exact mul_nonneg v2k_pos.le vf0
  obtain ⟨ha1, ha2⟩ := abs_lt.1 hlo
  have kip : ki ≠ 0 := by
    rintro h; rw [h] at ha1 ha2 hhi; linarith
  have kfp : kf ≠ 0 := by
    rintro h; rw [h] at ha1 ha2 hhi; linarith
  have vip : vi ≠ 0 := by rintro rfl; exact kip (by rw [← e1, mul_zero])
  have kk : 0 < ki * kf := mul_pos (lt_of_le_of_ne ki0 kip.symm) (lt_of_le_of_ne kf0 kfp.symm)
  unfold Cone.new
  simp only [h1, h2, hvi, hvf]
  rw [if_pos ⟨hlo, hhi⟩, if_neg (by push Not; exact ⟨kip, kfp, vip⟩), if_neg]
  · exact ⟨_, rfl⟩
  · push Not
    have e : (ki * ki + kf * kf - Q * Q) / 2 / ki / kf = (ki * ki + kf * kf - Q * Q) / (2 * (ki * kf)) := by
      field_simp
    rw [e, le_div_iff₀ (by linarith), div_le_iff₀ (by linarith)]
    constructor <;> nlinarith

/-- the hypotheses of `C158_cone` and `C158_cone_exists` can be met -/
example : ∃ c, Cone.new (v2k * 1) 0 vsq2e 10 = .ok c ∧ (c.process [0, 1 / 3]).length = 2 := by
  have hv : E2v vsq2e = some 1 := E2v_of zero_le_one (by ring)
  have h1 : e2k vsq2e = some (v2k * 1) := by simp [e2k, hv]
  have h2 : e2k (vsq2e - 0) = some (v2k * 1) := by rw [sub_zero]; exact h1
  have := v2k_pos
  obtain ⟨c, hc⟩ := C158_cone_exists 10 h1 h2 (Q := v2k * 1) (by rw [sub_self, abs_zero]; linarith) (by linarith)
  obtain ⟨-, -, -, hl, -⟩ := C158_cone hc [0, 1 / 3]
  exact ⟨c, hc, hl⟩

/-- C159: neutrons come from the rectangle around the place of the given neutron and have its direction, time, weight and
spin; their energy is the one drawn -/
theorem C159_mono_partial {s : Mono} {ds : List Draw} (hE : s.neutron.v ≠ 0)
    (hu : ∀ d ∈ ds, 0 ≤ d.ux ∧ d.ux ≤ 1 ∧ 0 ≤ d.uy ∧ d.uy ≤ 1 ∧ 0 ≤ energy s.neutron.v + s.dE * d.g)
    (hx : 0 ≤ s.dx) (hy : 0 ≤ s.dy) :
    ∃ evs : List (Event ℝ), s.process ds = evs.map some ∧ List.Forall₂ (fun (d : Draw) (ev : Event ℝ) =>
      energy ev.v = energy s.neutron.v + s.dE * d.g ∧ (∃ f : ℝ, 0 ≤ f ∧ ev.v = f • s.neutron.v) ∧
      |ev.r.x - s.neutron.r.x| ≤ s.dx / 2 ∧ |ev.r.y - s.neutron.r.y| ≤ s.dy / 2 ∧ ev.r.z = s.neutron.r.z ∧
      ev.t = s.neutron.t ∧ ev.p = s.neutron.p ∧ ev.s1 = s.neutron.s1 ∧ ev.s2 = s.neutron.s2) ds evs := by
  have hE0 : 0 < energy s.neutron.v := by
    rw [← v2E_length]; have := Kinem.length_pos hE; have := vsq2e_pos
    unfold v2E; positivity
  have bx : ∀ u d : ℝ, 0 ≤ u → u ≤ 1 → 0 ≤ d → |(u - 0.5) * d| ≤ d / 2 := by
    intro u d h0 h1 hd
    rw [abs_le]; constructor <;> nlinarith
  have one : (1 : ℝ) • s.neutron.v = s.neutron.v := by ext <;> simp
  have build : ∀ (P : Draw → Event ℝ → Prop) (g : Draw → Option (Event ℝ)) (l : List Draw),
      (∀ d ∈ l, ∃ ev, g d = some ev ∧ P d ev) → ∃ evs : List (Event ℝ), l.map g = evs.map some ∧ List.Forall₂ P l evs := by
    intro P g l
    induction l with
    | nil => intro _; exact ⟨[], rfl, .nil⟩
    | cons d l ih =>
      intro h
      obtain ⟨evs, h1, h2⟩ := ih fun e he => h e (List.mem_cons_of_mem _ he)
      obtain ⟨ev, e1, e2⟩ := h d List.mem_cons_self
      exact ⟨ev :: evs, by rw [List.map_cons, List.map_cons, e1, h1], .cons e2 h2⟩
  unfold Mono.process
  split
  · rename_i hz
    obtain ⟨z1, z2, z3⟩ := hz
    apply build
    intro d _
    refine ⟨_, rfl, by rw [z3]; ring, ⟨1, zero_le_one, one.symm⟩, ?_, ?_, rfl, rfl, rfl, rfl, rfl⟩
    · rw [z1, sub_self]; simp
    · rw [z2, sub_self]; simp
  · split
    · rename_i hz
      apply build
      intro d hd
      obtain ⟨u1, u2, u3, u4, -⟩ := hu d hd
      refine ⟨_, rfl, by rw [hz]; simp [Mono.area], ⟨1, zero_le_one, one.symm⟩, ?_, ?_, rfl, rfl, rfl, rfl, rfl⟩
      · simp only [Mono.area, add_sub_cancel_left]; exact bx _ _ u1 u2 hx
      · simp only [Mono.area, add_sub_cancel_left]; exact bx _ _ u3 u4 hy
    · apply build
      intro d hd
      obtain ⟨u1, u2, u3, u4, u5⟩ := hu d hd
      have hq : 0 ≤ (energy s.neutron.v + s.dE * d.g) / energy s.neutron.v := div_nonneg u5 hE0.le
      refine ⟨⟨⟨s.neutron.r.x + (d.ux - 0.5) * s.dx, s.neutron.r.y + (d.uy - 0.5) * s.dy, s.neutron.r.z⟩,
        ⟨s.neutron.v.x * √((energy s.neutron.v + s.dE * d.g) / energy s.neutron.v),
         s.neutron.v.y * √((energy s.neutron.v + s.dE * d.g) / energy s.neutron.v),
         s.neutron.v.z * √((energy s.neutron.v + s.dE * d.g) / energy s.neutron.v)⟩,
        s.neutron.s1, s.neutron.s2, s.neutron.t, s.neutron.p⟩, ?_, ?_, ⟨√((energy s.neutron.v + s.dE * d.g) / energy s.neutron.v), Real.sqrt_nonneg _, ?_⟩,
        ?_, ?_, rfl, rfl, rfl, rfl, rfl⟩
      · simp only [Mono.spread, v2E_length, divD_ok hE0.ne', sqrtD_ok hq, Option.bind_eq_bind, Option.bind_some]
      · have hs := Real.mul_self_sqrt hq
        have hm : (energy s.neutron.v + s.dE * d.g) / energy s.neutron.v * energy s.neutron.v = energy s.neutron.v + s.dE * d.g :=
          div_mul_cancel₀ _ hE0.ne'
        refine Eq.trans ?_ hm
        generalize (energy s.neutron.v + s.dE * d.g) / energy s.neutron.v = q at hs
        simp only [energy, V3.dot]
        linear_combination vsq2e * (s.neutron.v.x * s.neutron.v.x + s.neutron.v.y * s.neutron.v.y + s.neutron.v.z * s.neutron.v.z) * hs
      · ext <;> simp [mul_comm]
      · rw [add_sub_cancel_left]; exact bx _ _ u1 u2 hx
      · rw [add_sub_cancel_left]; exact bx _ _ u3 u4 hy

/-- the hypotheses of `C159_mono_partial` can be met -/
example : ∃ evs : List (Event ℝ), (Mono.mk ray 1 2 vsq2e).process [⟨0, 1, 1⟩, ⟨1 / 2, 0, -1⟩] = evs.map some ∧ evs.length = 2 := by
  have he : energy ray.v = 2 * vsq2e := by simp [energy, ray, V3.dot]; ring
  have := vsq2e_pos
  obtain ⟨evs, h1, h2⟩ := C159_mono_partial (s := ⟨ray, 1, 2, vsq2e⟩) (ds := [⟨0, 1, 1⟩, ⟨1 / 2, 0, -1⟩])
    (fun h => by have := congrArg V3.x h; norm_num [ray] at this) (by
      intro d hd
      simp only [List.mem_cons, List.not_mem_nil, or_false] at hd
      rcases hd with rfl | rfl
      · refine ⟨by norm_num, by norm_num, by norm_num, by norm_num, ?_⟩
        rw [he]; linarith
      · refine ⟨by norm_num, by norm_num, by norm_num, by norm_num, ?_⟩
        rw [he]; linarith) (by norm_num) (by norm_num)
  exact ⟨evs, h1, h2.length_eq.symm⟩

/-- C159 is false: a normal distribution has values below any bound; for a negative energy the velocity is not a number -/
theorem C159_mono_false (s : Mono) (hd : s.dE ≠ 0) (hE : s.neutron.v ≠ 0) : ∃ g0 : ℝ, ∀ ux uy g : ℝ,
    (0 < s.dE → g < g0) → (s.dE < 0 → g0 < g) → s.process [⟨ux, uy, g⟩] = [none] := by
  have hE0 : 0 < energy s.neutron.v := by
    rw [← v2E_length]; have := Kinem.length_pos hE; have := vsq2e_pos
    unfold v2E; positivity
  refine ⟨- energy s.neutron.v / s.dE, fun ux uy g h1 h2 => ?_⟩
  have hneg : energy s.neutron.v + s.dE * g < 0 := by
    rcases lt_or_gt_of_ne hd with h | h
    · have := mul_lt_mul_of_neg_left (h2 h) h
      rw [mul_div_cancel₀ _ hd] at this; linarith
    · have := mul_lt_mul_of_pos_left (h1 h) h
      rw [mul_div_cancel₀ _ hd] at this; linarith
  have hq : (energy s.neutron.v + s.dE * g) / energy s.neutron.v < 0 := div_neg_of_neg_of_pos hneg hE0
  unfold Mono.process
  rw [if_neg (fun h => hd h.2.2), if_neg hd]
  simp only [List.map_cons, List.map_nil, Mono.spread, v2E_length, divD_ok hE0.ne', Option.bind_eq_bind, Option.bind_some, sqrtD, hq, if_true]
  rfl

/-- the hypotheses of `C159_mono_false` can be met -/
example : ∃ g0 : ℝ, ∀ ux uy g : ℝ, g < g0 → (Mono.mk ray 1 2 0.1).process [⟨ux, uy, g⟩] = [none] := by
  obtain ⟨g0, h⟩ := C159_mono_false ⟨ray, 1, 2, 0.1⟩ (by norm_num) (fun h => by have := congrArg V3.x h; norm_num [ray] at this)
  exact ⟨g0, fun ux uy g hg => h ux uy g (fun _ => hg) (fun h => by norm_num at h)⟩

end Verif.Sources
