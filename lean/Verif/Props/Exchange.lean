import Verif.Lemmas.Exchange
import Verif.Props.IdfNeutron
import Mathlib.Tactic.Linarith
/-!
Properties of the exchange of neutrons with other programs (C152-C156).
-/

namespace Verif.Exchange
open Solid Flight Homog Kinem

/-- two neutrons used in the examples -/
noncomputable def evA : Event ℝ := ⟨⟨1, 2, 3⟩, ⟨3, 0, 4⟩, Real.pi / 2, -Real.pi / 3, 0.01, 0.5⟩
/-- a neutron in the other direction, spin along the vertical -/
noncomputable def evB : Event ℝ := ⟨⟨0, 0, -1⟩, ⟨0, 0, 1⟩, 0, 0, 0, 2⟩

theorem evA_ne : evA.v ≠ 0 := fun h => by have := congrArg V3.x h; norm_num [evA] at this
theorem evB_ne : evB.v ≠ 0 := fun h => by have := congrArg V3.z h; norm_num [evB] at this

/-- C152: neutrons written to an MCPL file are read back with the same position, velocity, time, weight and direction of
the spin, in the same order, however the file is cut in blocks -/
theorem C152_round_trip_partial {evs : List (Event ℝ)} (h0 : evs ≠ []) (hv : ∀ ev ∈ evs, ev.v ≠ 0) {k : ℕ} (hk : 0 < k) :
    ∃ ps evs', writeMcpl evs = some ps ∧ fromMcplCli (blocks k ps) (some false) = .ok (evs'.map some) ∧
      List.Forall₂ SameState evs evs' := by
  obtain ⟨ps, h1, h2, h3, -⟩ := mapM_ok hv (fun ev hm => there_back (hv ev hm))
  have hp : ps ≠ [] := by
    intro h; rw [h] at h3; exact h0 (List.length_eq_zero_iff.1 h3.symm)
  refine ⟨ps, evs.map fun ev => { ev with s1 := Real.arccos (spinDir ev.s1 ev.s2).y, s2 := arctan2 (spinDir ev.s1 ev.s2).x (spinDir ev.s1 ev.s2).z },
    h1, ?_, ?_⟩
  · simp only [fromMcplCli, Option.getD_some]
    rw [mcpl2mcv_ok hk hp]
    simp only [Bool.false_eq_true, if_false, Option.map_id', h2, List.map_map]
    rfl
  · rw [List.forall₂_map_right_iff, List.forall₂_same]
    intro ev _
    exact ⟨rfl, rfl, rfl, rfl, (spinDir_angles (spinDir_len _ _)).symm⟩

/-- C152: spin numbers in the range of spherical coordinates are also read back -/
theorem C152_round_trip_spin_partial {evs : List (Event ℝ)} (h0 : evs ≠ []) (hv : ∀ ev ∈ evs, ev.v ≠ 0)
    (hs : ∀ ev ∈ evs, Canonical ev.s1 ev.s2) {k : ℕ} (hk : 0 < k) :
    ∃ ps, writeMcpl evs = some ps ∧ fromMcplCli (blocks k ps) (some false) = .ok (evs.map some) := by
  obtain ⟨ps, h1, h2, h3, -⟩ := mapM_ok (g := id) hv (fun ev hm => by
    rw [there_back (hv ev hm), (angles_spinDir (hs ev hm)).1, (angles_spinDir (hs ev hm)).2]; rfl)
  have hp : ps ≠ [] := by
    intro h; rw [h] at h3; exact h0 (List.length_eq_zero_iff.1 h3.symm)
  refine ⟨ps, h1, ?_⟩
  simp only [fromMcplCli, Option.getD_some]
  rw [mcpl2mcv_ok hk hp]
  simp only [Bool.false_eq_true, if_false, Option.map_id', h2]
  rfl

example : ∃ ps, writeMcpl [evA, evB, evA] = some ps ∧
    fromMcplCli (blocks 2 ps) (some false) = .ok ([evA, evB, evA].map some) := by
  have hp := Real.pi_pos
  have ca : Canonical evA.s1 evA.s2 := .inl ⟨by simp only [evA]; linarith, by simp only [evA]; linarith,
    by simp only [evA]; linarith, by simp only [evA]; linarith⟩
  have cb : Canonical evB.s1 evB.s2 := .inr ⟨.inl rfl, rfl⟩
  refine C152_round_trip_spin_partial (by simp) ?_ ?_ (by norm_num)
  · intro ev hm
    simp only [List.mem_cons, List.not_mem_nil, or_false] at hm
    rcases hm with rfl | rfl | rfl
    exacts [evA_ne, evB_ne, evA_ne]
  · intro ev hm
    simp only [List.mem_cons, List.not_mem_nil, or_false] at hm
    rcases hm with rfl | rfl | rfl
    exacts [ca, cb, ca]

/-- the hypotheses of `C152_round_trip_partial` can be met by a spin out of range -/
example : ∃ ps evs', writeMcpl [{ evA with s1 := 7, s2 := 9 }] = some ps ∧
    fromMcplCli (blocks 10000 ps) (some false) = .ok (evs'.map some) ∧
      List.Forall₂ SameState [{ evA with s1 := 7, s2 := 9 }] evs' := by
  refine C152_round_trip_partial (by simp) ?_ (by norm_num)
  intro ev hm
  simp only [List.mem_cons, List.not_mem_nil, or_false] at hm
  subst hm
  exact evA_ne

/-- C152 is false for a neutron at rest: its direction is not a number, and nothing can be read back; and for an empty
file -/
theorem C152_round_trip_false :
    (∃ ev : Event ℝ, ev.v = 0 ∧ writeMcpl [ev] = none) ∧
    (writeMcpl [] = some [] ∧ ∀ k scale, mcpl2mcv (blocks k []) scale = .error .valueError) := by
  refine ⟨⟨{ evA with v := 0 }, rfl, ?_⟩, rfl, ?_⟩
  · simp [writeMcpl, toParticle_rest]
  · intro k scale
    have : blocks k [] = [] := by
      unfold blocks
      rcases Nat.eq_zero_or_pos k with rfl | hk
      · simp [Idf.chunkN]
      · have : (([] : List Particle).length + (k - 1)) / k = 0 := Nat.div_eq_of_lt (by simp; omega)
        rw [this]; rfl
    rw [this]; rfl

/-- C153: with the default option the intensity of an imported file, the mean weight, is the sum of the weights of the
MCPL file -/
theorem C153_import {ps : List Particle} (h0 : ps ≠ []) (he : ∀ p ∈ ps, 0 ≤ p.ekin) {k : ℕ} (hk : 0 < k) :
    ∃ evs, fromMcplCli (blocks k ps) none = .ok (evs.map some) ∧ evs.length = ps.length ∧
      meanWeight evs = totalWeight ps := by
  have hex : ∀ p ∈ ps, ∃ ev, fromParticle p = some ev ∧ ev.p = p.weight := by
    intro p hp
    have : 0 ≤ p.ekin * 1e9 := mul_nonneg (he p hp) (by norm_num)
    exact ⟨_, by simp only [fromParticle, E2v_ok this, Option.bind_eq_bind, Option.bind_some]; rfl, rfl⟩
  have key : ∀ (c : ℝ) (l : List Particle), (∀ p ∈ l, ∃ ev, fromParticle p = some ev ∧ ev.p = p.weight) →
      ∃ evs : List (Event ℝ), l.map (fun p => (fromParticle p).map fun ev => { ev with p := ev.p * c }) = evs.map some ∧
        evs.length = l.length ∧ (evs.map Event.p).sum = c * (l.map Particle.weight).sum := by
    intro c l
    induction l with
    | nil => intro _; exact ⟨[], rfl, rfl, by simp⟩
    | cons p l ih =>
      intro h
      obtain ⟨evs, h1, h2, h3⟩ := ih fun q hq => h q (List.mem_cons_of_mem _ hq)
      obtain ⟨ev, e1, e2⟩ := h p List.mem_cons_self
      refine ⟨{ ev with p := ev.p * c } :: evs, ?_, ?_, ?_⟩
      · rw [List.map_cons, List.map_cons, h1, e1]; rfl
      · simp [h2]
      · simp only [List.map_cons, List.sum_cons, h3, e2]; ring
  obtain ⟨evs, h1, h2, h3⟩ := key ps.length ps hex
  refine ⟨evs, ?_, h2, ?_⟩
  · simp only [fromMcplCli, Option.getD_none]
    rw [mcpl2mcv_ok hk h0]
    simp only [if_true, h1]
  · have : (ps.length : ℝ) ≠ 0 := by
      rw [Nat.cast_ne_zero]; exact fun h => h0 (List.length_eq_zero_iff.1 h)
    rw [meanWeight, totalWeight, h2, h3, mul_comm, mul_div_assoc, div_self this, mul_one]

/-- the hypotheses of `C153_import` can be met -/
example : ∃ evs, fromMcplCli (blocks 10000 [⟨⟨1, 2, 3⟩, 1, ⟨0, 0, 1⟩, ⟨0, 0, 0⟩, 5, 3⟩, ⟨⟨1, 2, 3⟩, 2, ⟨0, 1, 0⟩, ⟨0, 0, 0⟩, 5, 4⟩]) none =
    .ok (evs.map some) ∧ evs.length = 2 ∧ meanWeight evs = 7 := by
  obtain ⟨evs, h1, h2, h3⟩ := C153_import (ps := [⟨⟨1, 2, 3⟩, 1, ⟨0, 0, 1⟩, ⟨0, 0, 0⟩, 5, 3⟩, ⟨⟨1, 2, 3⟩, 2, ⟨0, 1, 0⟩, ⟨0, 0, 0⟩, 5, 4⟩])
    (by simp) (by intro p hp; simp only [List.mem_cons, List.not_mem_nil, or_false] at hp; rcases hp with rfl | rfl <;> norm_num)
    (k := 10000) (by norm_num)
  exact ⟨evs, h1, h2, by rw [h3]; norm_num [totalWeight]⟩

/-- C153: the exported file has the number of neutrons times the intensity -/
theorem C153_export_partial {evs : List (Event ℝ)} (hv : ∀ ev ∈ evs, ev.v ≠ 0) (h0 : evs ≠ []) :
    ∃ ps, writeMcpl evs = some ps ∧ totalWeight ps = evs.length * meanWeight evs := by
  obtain ⟨ps, h1, -, -, h4⟩ := mapM_ok hv (fun ev hm => there_back (hv ev hm))
  have : (evs.length : ℝ) ≠ 0 := by
    rw [Nat.cast_ne_zero]; exact fun h => h0 (List.length_eq_zero_iff.1 h)
  exact ⟨ps, h1, by rw [totalWeight, h4, meanWeight, mul_div_cancel₀ _ this]⟩

/-- C153 is false for the export: the file written has not the intensity of the neutrons, and the export followed by the
import with default options changes the weights -/
theorem C153_export_false : ∃ (evs : List (Event ℝ)) (ps : List Particle), writeMcpl evs = some ps ∧
    totalWeight ps ≠ meanWeight evs ∧
    ∀ evs', fromMcplCli (blocks 10000 ps) none = .ok (evs'.map some) → meanWeight evs' = 2 * meanWeight evs := by
  have hv : ∀ ev ∈ [evB, evB], ev.v ≠ 0 := by
    intro ev hm; simp only [List.mem_cons, List.not_mem_nil, or_false] at hm
    rcases hm with rfl | rfl <;> exact evB_ne
  obtain ⟨ps, h1, h2⟩ := C153_export_partial hv (by simp)
  have hm : meanWeight [evB, evB] = 2 := by norm_num [meanWeight, evB]
  refine ⟨[evB, evB], ps, h1, by rw [h2, hm]; norm_num, ?_⟩
  intro evs' he
  obtain ⟨qs, g1, g2, g3, -⟩ := mapM_ok hv (fun ev hm => there_back (hv ev hm))
  have hq : qs = ps := by rw [h1] at g1; exact (Option.some.inj g1).symm
  subst hq
  have hn : qs ≠ [] := by intro h; rw [h] at g3; simp at g3
  have hek : ∀ p ∈ qs, 0 ≤ p.ekin := by
    intro p hp
    have hf : fromParticle p ∈ qs.map fromParticle := List.mem_map_of_mem hp
    rw [g2] at hf
    obtain ⟨ev, -, hev⟩ := List.mem_map.1 hf
    by_contra hneg
    have : E2v (p.ekin * 1e9) = none := by
      have : p.ekin * 1e9 < 0 := mul_neg_of_neg_of_pos (not_le.1 hneg) (by norm_num)
      simp [E2v, sqrtD, this]
    simp [fromParticle, this] at hev
  obtain ⟨evs'', k1, -, k3⟩ := C153_import hn hek (k := 10000) (by norm_num)
  rw [k1] at he
  have hinj : evs'' = evs' := List.map_injective_iff.2 (Option.some_injective _) (by simpa using he)
  rw [← hinj, k3, h2]; norm_num

/-- the hypotheses of `C153_export_partial` can be met -/
example : ∃ ps, writeMcpl [evB] = some ps ∧ totalWeight ps = meanWeight [evB] := by
  obtain ⟨ps, h1, h2⟩ := C153_export_partial (evs := [evB]) (by
    intro ev hm; simp only [List.mem_cons, List.not_mem_nil, or_false] at hm; subst hm; exact evB_ne) (by simp)
  exact ⟨ps, h1, by rw [h2]; norm_num⟩

/-- C154: a polarisation vector of length 1 is kept by import and export -/
theorem C154_polarisation_partial {p : Particle} (he : 0 < p.ekin) (hd : p.direction ≠ 0)
    (hp : p.polarisation.dot p.polarisation = 1) :
    ∃ ev p', fromParticle p = some ev ∧ toParticle ev = some p' ∧ p'.polarisation = p.polarisation := by
  have hp' : p.polarisation.x * p.polarisation.x + p.polarisation.y * p.polarisation.y +
      p.polarisation.z * p.polarisation.z = 1 := hp
  have hE : 0 ≤ p.ekin * 1e9 := by positivity
  have hw : 0 < √(p.ekin * 1e9) * sqrte2v := mul_pos (Real.sqrt_pos.2 (by positivity)) sqrte2v_pos
  have hf := fromParticle_ok (p := p) hw.le (by
    have := energy_of_v (E2v_ok hE)
    rw [v2E, mul_comm, this]; ring) hp'
  refine ⟨_, _, hf, toParticle_ok ?_, ?_⟩
  · intro h
    apply hd
    rw [V3.ext_iff] at h ⊢
    simp only [V3.zero_x, V3.zero_y, V3.zero_z, mul_eq_zero, hw.ne', false_or] at h ⊢
    exact h
  · exact spinDir_angles hp'

/-- the hypotheses of `C154_polarisation_partial` can be met -/
example : ∃ ev p', fromParticle ⟨⟨1, 2, 3⟩, 1, ⟨0, 0, 1⟩, ⟨0.6, 0, -0.8⟩, 5, 3⟩ = some ev ∧ toParticle ev = some p' ∧
    p'.polarisation = ⟨0.6, 0, -0.8⟩ :=
  C154_polarisation_partial (p := ⟨⟨1, 2, 3⟩, 1, ⟨0, 0, 1⟩, ⟨0.6, 0, -0.8⟩, 5, 3⟩) one_pos
    (fun h => by have := congrArg V3.z h; norm_num at this) (by norm_num [V3.dot])

/-- C154 is false: neutrons without polarisation become polarised along the vertical -/
theorem C154_polarisation_false : ∃ (p : Particle) (ev : Event ℝ) (p' : Particle), p.polarisation = 0 ∧
    fromParticle p = some ev ∧ toParticle ev = some p' ∧ p'.polarisation = ⟨0, 1, 0⟩ := by
  have hE : E2v ((1 : ℝ) * 1e9) = some (√(1 * 1e9) * sqrte2v) := E2v_ok (by norm_num)
  have hw : 0 < √((1 : ℝ) * 1e9) * sqrte2v := mul_pos (Real.sqrt_pos.2 (by norm_num)) sqrte2v_pos
  refine ⟨⟨⟨1, 2, 3⟩, 1, ⟨0, 0, 1⟩, 0, 5, 3⟩, ⟨⟨1 / 100, 2 / 100, 3 / 100⟩, ⟨√(1 * 1e9) * sqrte2v * 0, √(1 * 1e9) * sqrte2v * 0,
    √(1 * 1e9) * sqrte2v * 1⟩, 0, 0, 5 / 1e3, 3⟩, _, rfl, ?_, toParticle_ok ?_, by simp [spinDir]⟩
  · simp only [fromParticle, hE, Option.bind_eq_bind, Option.bind_some]
    simp
  · intro h
    have := congrArg V3.z h
    simp at this
    rcases this with h | h
    · norm_num at h
    · exact sqrte2v_pos.ne' h

/-- C155: a Vitess neutron read by the Python converter is the same neutron in the units and axes of mcvine -/
theorem C155_python_partial {n : VNeutron} (hw : 0 < n.wavelength) (hu : n.vector.dot n.vector = 1) :
    ∃ ev, fromVitessPy n = some ev ∧ SamePhysics n ev := by
  have hs : (0 : ℝ) < 3956.0346 / n.wavelength := div_pos (by norm_num) hw
  refine ⟨_, by simp only [fromVitessPy, divD_ok hw.ne', Option.bind_eq_bind, Option.bind_some]; rfl, ?_⟩
  have hsp : √(V3.dot (⟨3956.0346 / n.wavelength * n.vector.y, 3956.0346 / n.wavelength * n.vector.z,
      3956.0346 / n.wavelength * n.vector.x⟩ : V3 ℝ) ⟨3956.0346 / n.wavelength * n.vector.y,
      3956.0346 / n.wavelength * n.vector.z, 3956.0346 / n.wavelength * n.vector.x⟩) = 3956.0346 / n.wavelength := by
    rw [Real.sqrt_eq_iff_mul_self_eq_of_pos hs]
    simp only [V3.dot] at hu ⊢
    linear_combination -(3956.0346 / n.wavelength * (3956.0346 / n.wavelength)) * hu
  constructor
  case unit => exact hu
  case p => rfl
  all_goals first
    | rw [hsp]
    | skip
  · norm_num; ring
  · norm_num; ring
  · norm_num; ring
  · norm_num; ring
  · rw [mul_div_cancel₀ _ hw.ne']

/-- the hypotheses of `C155_python_partial` can be met -/
example : ∃ ev, fromVitessPy ⟨3, 4, 1, ⟨200, 1, 2⟩, ⟨0.8, 0.6, 0⟩⟩ = some ev ∧
    SamePhysics ⟨3, 4, 1, ⟨200, 1, 2⟩, ⟨0.8, 0.6, 0⟩⟩ ev :=
  C155_python_partial (by norm_num) (by norm_num [V3.dot])

/-- C155: the two C++ converters undo each other -/
theorem C155_cpp_partial {ev : Event ℝ} {n : VNeutron} (h : toVitess ev = some n) (ev0 : Event ℝ) :
    fromVitess n ev0 = { ev with s1 := ev0.s1, s2 := ev0.s2 } := by
  unfold toVitess at h
  cases hw : wavelength ev.v with
  | none => simp [hw] at h
  | some w =>
    simp [hw] at h
    subst h; rfl

/-- a wavelength for the neutron of the examples -/
theorem wavelength_B : ∃ w, wavelength evB.v = some w := by
  refine ⟨2 * Real.pi / (v2k * √(evB.v.x * evB.v.x + evB.v.y * evB.v.y + evB.v.z * evB.v.z)), ?_⟩
  unfold wavelength
  apply divD_ok
  simp [evB, v2k_pos.ne']

/-- the hypothesis of `C155_cpp_partial` can be met -/
example : ∃ n, toVitess evB = some n ∧ fromVitess n evA = { evB with s1 := evA.s1, s2 := evA.s2 } := by
  obtain ⟨w, hw⟩ := wavelength_B
  exact ⟨_, by simp only [toVitess, hw, Option.bind_eq_bind, Option.bind_some]; rfl, rfl⟩

/-- C155 is false of the C++ converters: they change neither units nor axes, so what they write is another neutron, also
for the Python converter -/
theorem C155_cpp_false : ∃ (ev : Event ℝ) (n : VNeutron), toVitess ev = some n ∧ ¬ SamePhysics n ev ∧
    ∀ ev', fromVitessPy n = some ev' → ev'.r ≠ ev.r ∧ ev'.v ≠ ev.v := by
  obtain ⟨w, hw⟩ := wavelength_B
  refine ⟨evB, _, by simp only [toVitess, hw, Option.bind_eq_bind, Option.bind_some]; rfl, ?_, ?_⟩
  · intro h
    have := h.x
    norm_num [evB] at this
  · intro ev' he
    unfold fromVitessPy at he
    cases hv : divD 3956.0346 w with
    | none => simp [hv] at he
    | some v =>
      simp [hv] at he
      subst he
      constructor
      · intro h; have := congrArg V3.y h; norm_num [evB] at this
      · intro h; have := congrArg V3.z h; norm_num [evB] at this

end Verif.Exchange

namespace Verif.Exchange
open Idf

/-- C156: `extract` with a stop index writes a file with exactly the neutrons of the range, cut at the end of the file -/
theorem C156_extract_partial {f : List UInt8} {rs : List (List UInt64)} (h : HoldsRecords f rs 0)
    {start stop : ℕ} (hlt : start < stop) :
    ∃ g, extract f start (some stop) = .ok g ∧ HoldsRecords g ((rs.take stop).drop start) 0 := by
  refine ⟨_, ?_, (C04_write_layout ((rs.take stop).drop start) [] ?_).1⟩
  · have hr := C04_read_refines f rs h (start : Int) ((stop : Int) - start)
    have h1 : ¬ ((stop : Int) - start = 0) := by omega
    have h2 : ((start : Int) ≥ 0 ∧ (stop : Int) - start > 0) := by omega
    simp only [Storage.idfRead, h1, h2, if_false] at hr
    have h3 : ¬ ((start : Int) ≥ stop) := by omega
    have h4 : ((stop : Int) - start).toNat = stop - start := by omega
    simp only [extract, h3, if_false, hr]
    simp only [and_self, if_true, Int.toNat_natCast, h4, List.drop_take]
  · intro r hr
    exact h.2.1 r (List.take_subset _ _ (List.drop_subset _ _ hr))

/-- the hypotheses of `C156_extract_partial` can be met -/
example : ∃ g, extract (write (.rows exRows) []).1 (1 : ℕ) (some (9 : ℕ)) = .ok g ∧ HoldsRecords g (exRows.drop 1) 0 :=
  C156_extract_partial (stop := 9) (C04_write_layout exRows [] (by decide)).1 (by norm_num)

/-- C156: other ranges are refused -/
theorem C156_extract_refuses (f : List UInt8) (start stop : Int) :
    (stop ≤ start → extract f start (some stop) = .error .valueError) ∧
    (start < 0 → start < stop → extract f start (some stop) = .error .assertionError) := by
  constructor
  · intro h; simp [extract, h]
  · intro h0 h
    have h1 : ¬ (stop - start = 0) := by omega
    have h2 : ¬ (start ≥ 0 ∧ stop - start > 0) := by omega
    have h3 : ¬ (start ≥ stop) := by omega
    simp only [extract, h3, if_false, readWindow, h1, h2]

/-- both cases of `C156_extract_refuses` occur -/
example : extract (write (.rows exRows) []).1 2 (some 2) = .error .valueError ∧
    extract (write (.rows exRows) []).1 (-1) (some 2) = .error .assertionError :=
  ⟨(C156_extract_refuses _ 2 2).1 le_rfl, (C156_extract_refuses _ (-1) 2).2 (by norm_num) (by norm_num)⟩

/-- C156: `print` shows the range asked for if exactly one of stop index and number is given -/
theorem C156_print_partial (start m : Int) (h : 0 < m) :
    printRange start (some (start + m)) none = .ok (start, m) ∧ printRange start none (some m) = .ok (start, m) := by
  have h1 : ¬ (m ≤ 0) := by omega
  have h2 : start + m - start = m := by omega
  simp [printRange, h1, h2]

/-- the hypothesis of `C156_print_partial` can be met -/
example : printRange 3 (some 8) none = .ok (3, 5) := (C156_print_partial 3 5 (by norm_num)).1

/-- C156 is false without the stop index, which is optional: `extract` and `print` with the default options always fail -/
theorem C156_default_false : (∀ (f : List UInt8) (start : Int), extract f start none = .error .typeError) ∧
    (∀ start : Int, printRange start none none = .error .typeError) := ⟨fun _ _ => rfl, fun _ => rfl⟩

end Verif.Exchange
