import Verif.Lemmas.MonoConf
/-!
The property of the settings of the monochromatic source (C366).
-/

namespace Verif.MonoConf
open Spec Solid Flight Homog Kinem Sources

/-- **C366** (partial): if an energy is given, the neutrons have it, and they fly in the direction of the velocity that is given; without an energy they have this
velocity. Everything else is as it is set. Missing: negative energies and an energy without a direction, see `C366_false`. -/
theorem C366_partial (s : Settings) (v r : V3 ℝ) (hv : s.velocity = [v.x, v.y, v.z]) (hr : s.position = [r.x, r.y, r.z])
    (hw : 0 ≤ s.width_E) (hE : 0 ≤ s.energy) (h0 : v ≠ 0 ∨ s.energy = 0) :
    ∃ m, source s = .ok (some m) ∧ (0 < s.energy → meV m.neutron.v = s.energy ∧ SameDirection m.neutron.v v) ∧
      (s.energy = 0 → m.neutron.v = v) ∧ m.neutron.r = r ∧ m.neutron.t = s.time ∧ m.neutron.p = s.probability ∧
      m.dx = s.width ∧ m.dy = s.height ∧ m.dE = s.width_E := by
  have hs : source s = .ok ((scaled s.energy v).map fun v => ⟨⟨r, v, 0, 1, s.time, s.probability⟩, s.width, s.height, s.width_E⟩) := by
    unfold source
    rw [hv, hr]
    dsimp only [three]
    rw [if_neg (not_lt.2 hw)]
  rw [hs]
  rcases hE.eq_or_lt with e | hp
  · have : scaled s.energy v = some v := by
      unfold scaled
      rw [if_pos e.symm]
    rw [this]
    exact ⟨_, rfl, fun h => absurd e h.ne, fun _ => rfl, rfl, rfl, rfl, rfl, rfl, rfl⟩
  · have hv0 : v ≠ 0 := h0.resolve_right hp.ne'
    rw [scaled_eq hp hv0]
    refine ⟨_, rfl, fun _ => ⟨meV_scaled hp hv0, _, ?_, rfl⟩, fun h => absurd h hp.ne', rfl, rfl, rfl, rfl, rfl, rfl⟩
    have := Kinem.length_pos hv0
    have := sqrte2v_pos
    have := Real.sqrt_pos.2 hp
    positivity

/-- the velocity without settings, with an energy of 60 meV -/
example : ∃ m, source ⟨60, 0, [0, 0, 3000], [0, 0, 0], 0, 0, 0, 1⟩ = .ok (some m) ∧ meV m.neutron.v = 60 := by
  obtain ⟨m, h1, h2, _⟩ := C366_partial ⟨60, 0, [0, 0, 3000], [0, 0, 0], 0, 0, 0, 1⟩ ⟨0, 0, 3000⟩ ⟨0, 0, 0⟩ rfl rfl le_rfl
    (by norm_num) (.inl fun h => by have := congrArg V3.z h; norm_num [show (0 : V3 ℝ).z = 0 from rfl] at this)
  exact ⟨m, h1, (h2 (by norm_num)).1⟩

/-- **C366**: settings that are no vectors and a negative spread are refused. -/
theorem C366_refused (s : Settings) :
    (∃ e, source s = .error e) ↔ s.velocity.length ≠ 3 ∨ s.width_E < 0 ∨ s.position.length ≠ 3 := by
  constructor
  · rintro ⟨e, h⟩
    by_contra hn
    simp only [not_or, not_not, not_lt] at hn
    obtain ⟨h1, h2, h3⟩ := hn
    obtain ⟨a, b, c, h1⟩ := List.length_eq_three.1 h1
    obtain ⟨a', b', c', h3⟩ := List.length_eq_three.1 h3
    unfold source at h
    rw [h1, h3] at h
    dsimp only [three] at h
    rw [if_neg (not_lt.2 h2)] at h
    cases h
  · intro h
    by_cases h1 : s.velocity.length = 3
    · obtain ⟨a, b, c, h1'⟩ := List.length_eq_three.1 h1
      unfold source
      rw [h1', show three [a, b, c] = .ok ⟨a, b, c⟩ from rfl]
      dsimp only
      by_cases h2 : s.width_E < 0
      · rw [if_pos h2]
        exact ⟨_, rfl⟩
      · rw [if_neg h2, three_error ((h.resolve_left (not_not.2 h1)).resolve_left h2)]
        exact ⟨_, rfl⟩
    · unfold source
      rw [three_error h1]
      exact ⟨_, rfl⟩

/-- a velocity of two numbers -/
example : ([0, 3000] : List ℝ).length ≠ 3 := by
  decide

/-- **C366** (false in general): a negative energy, and an energy without a direction, are accepted, and the velocity is not a number. -/
theorem C366_false (s : Settings) (v r : V3 ℝ) (hv : s.velocity = [v.x, v.y, v.z]) (hr : s.position = [r.x, r.y, r.z])
    (hw : 0 ≤ s.width_E) (h : s.energy < 0 ∨ (s.energy ≠ 0 ∧ v = 0)) : source s = .ok none := by
  have hn : scaled s.energy v = none := by
    unfold scaled
    rcases h with h | ⟨h, rfl⟩
    · rw [if_neg h.ne]
      unfold E2v sqrtD
      rw [if_pos h]
      rfl
    · rw [if_neg h]
      have hl : length (0 : V3 ℝ) = 0 := by
        rw [length_eq]
        change √(0 * 0 + 0 * 0 + 0 * 0) = 0
        norm_num
      cases E2v s.energy with
      | none => rfl
      | some w =>
        have hd : divD w (length (0 : V3 ℝ)) = none := by
          unfold divD
          rw [if_pos hl]
        simp only [Option.bind_eq_bind, Option.bind_some, hd, Option.bind_none]
  unfold source
  rw [hv, hr]
  dsimp only [three]
  rw [if_neg (not_lt.2 hw)]
  change Except.ok ((scaled s.energy v).map _) = _
  rw [hn]
  rfl

/-- an energy of -5 meV -/
example : source ⟨-5, 0, [0, 0, 3000], [0, 0, 0], 0, 0, 0, 1⟩ = .ok none :=
  C366_false _ ⟨0, 0, 3000⟩ ⟨0, 0, 0⟩ rfl rfl le_rfl (.inl (by norm_num))

end Verif.MonoConf
