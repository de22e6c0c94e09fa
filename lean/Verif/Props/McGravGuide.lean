import Verif.Lemmas.McGravGuide
/-!
Property theorems: the guide with gravity of McStas.
-/

namespace Verif.McGrav
open McStas McGuide McBend Kinem Solid Homog Flight

/-- C264: a neutron that comes to the entrance of a guide outside of the opening or on a wall between the channels is absorbed -/
theorem C264_outside (c0 c : Par) (h : c0.new = .ok c) (hl : 0 < c.l) (hN : 0 < c.nelements) (hc : c.nu = 0 ∧ c.phase = 0)
    (ξ : Nat → ℝ × ℝ) (e : Event ℝ) (hz : e.r.z ≤ 0) (hv : 0 < e.v.z) (a : Event ℝ) (ha : a = flown c.grav e (-e.r.z / e.v.z))
    (hout : ¬ (|a.r.x| ≤ c.w1 / 2 ∧ |a.r.y| ≤ c.h1 / 2) ∨ ∀ i j : ℤ, ¬ c.Inside i j a.r) : (trace c ξ e).p = -1 := by
  obtain ⟨b, hb, hp⟩ := pass_outside h hl hN ξ e hz hv a ha hout
  rw [trace_out, run_plain hl hN hc, hb]
  exact hp

/-- C264: a neutron that comes into a channel of a guide without waviness falls freely between the walls of the channel from reflection to
reflection; each one mirrors the velocity and multiplies the weight by the reflectivity for the momentum transfer.  After at most 1000 of them it
leaves through the exit or is absorbed at a chamfer or a wall that does not reflect; after 1001 it is absorbed.  Missing: neutrons that meet a
wall or the exit within 1e-10 seconds from a reflection or the entrance (`C264_false`), and neutrons that are turned back by a converging
guide. -/
theorem C264_partial (c0 c : Par) (h : c0.new = .ok c) (hl : 0 < c.l) (hN : 0 < c.nelements) (hc : c.nu = 0 ∧ c.phase = 0)
    (hF : c.Flat) (hG : c.G = 0 ∨ 1e-10 ≤ c.l * |c.G| / 2)
    (ξ : Nat → ℝ × ℝ) (e : Event ℝ) (hz : e.r.z ≤ 0) (hv : 0 < e.v.z) (a : Event ℝ) (ha : a = flown c.grav e (-e.r.z / e.v.z)) (i j : ℤ)
    (hop : |a.r.x| ≤ c.w1 / 2 ∧ |a.r.y| ≤ c.h1 / 2) (hin : c.Inside i j a.r) (hx : a.r.x < edge c.w1 c.k c.d (i + 1))
    (hy : a.r.y < edge c.h1 c.kh c.d (j + 1)) :
    ∃ N b, c.Reach i j N a b ∧
      ((N ≤ 1000 ∧ c.Ends i j b (trace c ξ e)) ∨ (N = 1001 ∧ (trace c ξ e).p = -1) ∨ c.Grazes i j b ∨ b.v.z ≤ 0) := by
  obtain ⟨hk, hkh, -⟩ := new_ok h
  obtain ⟨b, hb, hs, hb0⟩ := pass_channel h hl hN ξ e hz hv a ha i j hop hin hx hy
  obtain ⟨N, b', h1, h2⟩ := loop_sound hl hk.ne' hkh.ne' hG hF hN ξ 1001 b (by rw [hs]; exact hin) (by rw [hb0]; exact hl) hb0.ge
  rw [hs] at h1
  rw [trace_out, run_plain hl hN hc, hb]
  refine ⟨N, b', h1, ?_⟩
  rcases h2 with ⟨h3, h4⟩ | h3 | h3
  · exact .inl ⟨by omega, h4⟩
  · exact .inr (.inl h3)
  · exact .inr (.inr h3)

/-- C264: a straight guide does not turn neutrons back -/
theorem C264_straight (c0 c : Par) (h : c0.new = .ok c) (hl : 0 < c.l) (hN : 0 < c.nelements) (hc : c.nu = 0 ∧ c.phase = 0)
    (hF : c.Flat) (hG : c.G = 0 ∨ 1e-10 ≤ c.l * |c.G| / 2) (hw : c.w2 = c.w1) (hh : c.h2 = c.h1)
    (ξ : Nat → ℝ × ℝ) (e : Event ℝ) (hz : e.r.z ≤ 0) (hv : 0 < e.v.z) (a : Event ℝ) (ha : a = flown c.grav e (-e.r.z / e.v.z)) (i j : ℤ)
    (hop : |a.r.x| ≤ c.w1 / 2 ∧ |a.r.y| ≤ c.h1 / 2) (hin : c.Inside i j a.r) (hx : a.r.x < edge c.w1 c.k c.d (i + 1))
    (hy : a.r.y < edge c.h1 c.kh c.d (j + 1)) :
    ∃ N b, c.Reach i j N a b ∧
      ((N ≤ 1000 ∧ c.Ends i j b (trace c ξ e)) ∨ (N = 1001 ∧ (trace c ξ e).p = -1) ∨ c.Grazes i j b) := by
  obtain ⟨N, b, h1, h2⟩ := C264_partial c0 c h hl hN hc hF hG ξ e hz hv a ha i j hop hin hx hy
  refine ⟨N, b, h1, ?_⟩
  have : b.v.z = e.v.z := by rw [reach_vz hw hh h1, ha, vz_flown]
  rcases h2 with h2 | h2 | h2 | h2
  · exact .inl h2
  · exact .inr (.inl h2)
  · exact .inr (.inr h2)
  · linarith

/-- C265: with all options (channels, waviness, chamfers, the mode of a chopper) the energy of a neutron that is not absorbed is
conserved -/
theorem C265_energy (c : Par) (ξ : Nat → ℝ × ℝ) (e r : Event ℝ) (hp : 0 ≤ e.p) (h : c.run ξ e = .ok r) : c.energy r = c.energy e := by
  unfold Par.run at h
  split at h
  · next hl =>
    split at h
    · simp only at h
      split at h
      · cases h
      · next r1 h1 =>
        cases h
        rw [energy_turn, (pass_ok hl.1 _ ξ _ _ h1 hp).1, energy_turn]
    · exact (pass_ok hl.1 _ ξ _ _ h hp).1
  · cases h; rfl

/-- C266: the weight of a neutron is not increased, also with a table of reflectivities; a neutron that is absorbed is marked -/
theorem C266_weight (c : Par) (ξ : Nat → ℝ × ℝ) (e : Event ℝ) (hp : 0 ≤ e.p) :
    (trace c ξ e).p = -1 ∨ (0 ≤ (trace c ξ e).p ∧ (trace c ξ e).p ≤ e.p) := by
  rw [trace_out]
  unfold Par.run
  split
  · next hl =>
    split
    · simp only
      cases h : c.pass (c.angle e.t) ξ (c.turn (-c.angle e.t) e) with
      | error r => left; exact pass_error _ ξ _ _ h
      | ok r => right; exact (pass_ok hl.1 _ ξ _ _ h hp).2.2
    · cases h : c.pass 0 ξ e with
      | error r => left; exact pass_error _ ξ _ _ h
      | ok r => right; exact (pass_ok hl.1 _ ξ _ _ h hp).2.2
  · right; exact ⟨hp, le_rfl⟩

/-- C266: a neutron that is not absorbed leaves at the exit -/
theorem C266_exit (c : Par) (hl : 0 < c.l) (hN : 0 < c.nelements) (hc : c.nu = 0 ∧ c.phase = 0) (ξ : Nat → ℝ × ℝ) (e : Event ℝ) (hp : 0 ≤ e.p)
    (h : (trace c ξ e).p ≠ -1) : (trace c ξ e).r.z = c.l := by
  rw [trace_out, run_plain hl hN hc] at h ⊢
  cases h1 : c.pass 0 ξ e with
  | error r => rw [h1] at h; exact absurd (pass_error _ ξ _ _ h1) h
  | ok r => exact (pass_ok hl _ ξ _ _ h1 hp).2.1

/-- a guide of one meter with walls that absorb, as created from its parameters -/
noncomputable def black : Par :=
  ⟨1, 1, 0, 0, 1, 0.99, 0.0219, 6.07, 0, 0.003, 1, 0, -1, -1, -1, -1, 1, 0, 0, 0, 0, 0, 0, 0, 0, 0, 1, 0, 0, none⟩

/-- the same after the initialization -/
noncomputable def black1 : Par := { black with w2 := 1, h2 := 1 }

theorem black_new : black.new = .ok black1 := by
  unfold Par.new
  rw [if_neg (by norm_num [black]), if_neg (by norm_num [black]), if_neg (by norm_num [black])]
  simp only
  rw [if_neg (by norm_num [black])]
  simp [black, black1]

/-- a neutron that would meet the left wall 1e-11 seconds after the entrance -/
noncomputable def close : Event ℝ := ⟨⟨0.5 - 1e-9, 0, 0⟩, ⟨100, 0, 1000⟩, 0, 0, 0, 1⟩

/-- C264 is false: a neutron that comes into the opening of a guide with absorbing walls, close to a wall, flies through the wall and is behind
the guide outside of its cross section, with its full weight -/
theorem C264_false : ∃ (c0 c : Par) (e : Event ℝ), c0.new = .ok c ∧ 0 < c.l ∧ 0 < c.nelements ∧ c.Flat ∧ c.nu = 0 ∧ c.phase = 0 ∧ c.G = 0 ∧
    (c.m = 0 ∧ c.mleft < 0 ∧ c.mright < 0 ∧ c.mtop < 0 ∧ c.mbottom < 0) ∧ e.r.z = 0 ∧ 0 < e.v.z ∧ |e.r.x| < c.w1 / 2 ∧ |e.r.y| < c.h1 / 2 ∧
    ∀ ξ, (trace c ξ e).p = e.p ∧ e.p = 1 ∧ (trace c ξ e).r.z = c.l ∧ c.w2 / 2 < (trace c ξ e).r.x := by
  refine ⟨black, black1, close, black_new, by norm_num [black, black1], by norm_num [black, black1], by simp [Par.Flat, black, black1],
    rfl, rfl, rfl, by norm_num [black, black1], rfl, by norm_num [close], by norm_num [close, black, black1, abs_lt],
    by norm_num [close, black, black1], ?_⟩
  intro ξ
  have hx : black1.exit close = some (0.001, none) := by
    rw [exit_eq (by norm_num [black, black1]), if_pos (by norm_num [black, black1, close])]
    norm_num [black, black1, close]
  obtain ⟨b, hb, hs, -⟩ := pass_channel (c := black1) black_new (by norm_num [black, black1]) (by norm_num [black, black1]) ξ close
    (by norm_num [close]) (by norm_num [close]) close (by
      refine Event.ext ?_ ?_ rfl rfl ?_ rfl
      · ext <;> norm_num [flown, close]
      · ext <;> norm_num [flown, close]
      · norm_num [flown, close]) 0 0
    ⟨by norm_num [close, black, black1, abs_le], by norm_num [close, black, black1]⟩
    ((inside_zero rfl).2 (by norm_num [close, black, black1, edge])) (by norm_num [close, black, black1, edge])
    (by norm_num [close, black, black1, edge])
  have hb' : b = close := by
    have h1 : mid black1.w1 black1.k black1.d ((0 : ℤ) : ℝ) = 0 := by norm_num [mid, black, black1]
    have h2 : mid black1.h1 black1.kh black1.d ((0 : ℤ) : ℝ) = 0 := by norm_num [mid, black, black1]
    rw [h1, h2] at hs
    simpa [shift] using hs
  have hn : black1.next ((0 : ℤ) : ℝ) ((0 : ℤ) : ℝ) close = some (0.001, none) := by
    unfold Par.next
    rw [hx]
    have hsx : (0.5 : ℝ) * (black1.w2c - black1.w1c) = 0 := by norm_num [Par.w2c, Par.w1c, black, black1]
    have hsy : (0.5 : ℝ) * (black1.h2c - black1.h1c) = 0 := by norm_num [Par.h2c, Par.h1c, black, black1]
    have hg : black1.g = ⟨0, 0, 0⟩ := rfl
    have hfold : ∀ s ∈ black1.sides ((0 : ℤ) : ℝ) ((0 : ℤ) : ℝ), black1.test close (some (0.001, none)) s = some (0.001, none) := by
      intro s hs
      simp only [Par.sides, hsx, hsy, nzOf_eq, neg_zero, zero_mul, List.mem_cons, List.not_mem_nil, or_false] at hs
      rcases test_cases black1 close (some (0.001, none)) s with ⟨h, -⟩ | ⟨t, h1, h2, -⟩
      · exact h
      · exfalso
        unfold Par.sol solve2 at h1
        rw [if_pos (by rw [hg]; norm_num [V3.dot])] at h1
        split at h1
        · have h1 := Option.some.inj h1
          rcases hs with rfl | rfl | rfl | rfl
          · norm_num [V3.dot, close, black, black1] at *
          · norm_num [V3.dot, close, black, black1] at *
          · norm_num [V3.dot, close, black, black1, Side.val, Par.w1c] at h1
            rw [← h1] at h2; norm_num at h2
          · norm_num [V3.dot, close, black, black1, Side.val, Par.w1c] at h1
            rw [← h1] at h2; norm_num at h2
        · cases h1
    have : ∀ L : List Side, (∀ s ∈ L, black1.test close (some (0.001, none)) s = some (0.001, none)) →
        L.foldl (black1.test close) (some (0.001, none)) = some (0.001, none) := by
      intro L
      induction L with
      | nil => intro _; rfl
      | cons a L ih =>
        intro h
        rw [List.foldl_cons, h a List.mem_cons_self]
        exact ih fun s hs => h s (List.mem_cons_of_mem _ hs)
    exact this _ hfold
  have hr : trace black1 ξ close = shift (mid black1.w1 black1.k black1.d ((0 : ℤ) : ℝ)) (mid black1.h1 black1.kh black1.d ((0 : ℤ) : ℝ))
      (propDtGrav 0.001 black1.g close) := by
    rw [trace_out, run_plain (by norm_num [black, black1]) (by norm_num [black, black1]) ⟨rfl, rfl⟩, hb, hb']
    unfold Par.loop
    rw [hn]
    rfl
  rw [hr]
  refine ⟨rfl, rfl, ?_, ?_⟩
  · norm_num [shift, propDtGrav, Par.g, close, black, black1]
  · norm_num [shift, propDtGrav, Par.g, close, black, black1, mid]

/-- C267: half a turn of the guide used as a chopper does not matter, if the angle is not negative and the guide does not stand across the
beam.  Missing: negative angles. -/
theorem C267_partial (c : Par) (ξ : Nat → ℝ × ℝ) (e : Event ℝ) (hν : c.nu ≠ 0) (h0 : 0 ≤ 360 * c.nu * e.t + c.phase)
    (h90 : ∀ k : ℤ, 360 * c.nu * e.t + c.phase ≠ 90 + 180 * k) : trace { c with phase := c.phase + 180 } ξ e = trace c ξ e := by
  have hpi := Real.pi_pos
  obtain ⟨h1, h2⟩ := half_turn h0 h90 _ _ rfl rfl
  rw [trace_out, trace_out]
  unfold Par.run
  simp only [hν, ne_eq, not_false_eq_true, true_or, if_true, pass_phase]
  have e1 : Par.angle { c with phase := c.phase + 180 } e.t = (if fmodC (360 * c.nu * e.t + c.phase + 180) 360 > 90 ∧
      fmodC (360 * c.nu * e.t + c.phase + 180) 360 < 270 then fmodC (360 * c.nu * e.t + c.phase + 180) 360 - 180 else
      fmodC (360 * c.nu * e.t + c.phase + 180) 360) * (Real.pi / 180) := by unfold Par.angle; simp only [← add_assoc]
  have e2 : c.angle e.t = (if fmodC (360 * c.nu * e.t + c.phase) 360 > 90 ∧ fmodC (360 * c.nu * e.t + c.phase) 360 < 270 then
      fmodC (360 * c.nu * e.t + c.phase) 360 - 180 else fmodC (360 * c.nu * e.t + c.phase) 360) * (Real.pi / 180) := rfl
  rw [e1, e2]
  generalize (if fmodC (360 * c.nu * e.t + c.phase + 180) 360 > 90 ∧
      fmodC (360 * c.nu * e.t + c.phase + 180) 360 < 270 then fmodC (360 * c.nu * e.t + c.phase + 180) 360 - 180 else
      fmodC (360 * c.nu * e.t + c.phase + 180) 360) = g at *
  generalize (if fmodC (360 * c.nu * e.t + c.phase) 360 > 90 ∧ fmodC (360 * c.nu * e.t + c.phase) 360 < 270 then
      fmodC (360 * c.nu * e.t + c.phase) 360 - 180 else fmodC (360 * c.nu * e.t + c.phase) 360) = f at *
  have hgf : g * (Real.pi / 180) = f * (Real.pi / 180) ∨ g * (Real.pi / 180) = f * (Real.pi / 180) + 2 * Real.pi ∨
      g * (Real.pi / 180) = f * (Real.pi / 180) - 2 * Real.pi := by
    rcases h1 with rfl | rfl | rfl
    · exact .inl rfl
    · right; left; ring
    · right; right; ring
  have hz : f * (Real.pi / 180) = 0 ↔ g * (Real.pi / 180) = 0 := by
    have : Real.pi / 180 ≠ 0 := by positivity
    simp only [mul_eq_zero, this, or_false]
    exact h2.symm
  have ht : ∀ x, Par.turn { c with phase := c.phase + 180 } (g * (Real.pi / 180)) x = c.turn (f * (Real.pi / 180)) x :=
    fun x => (turn_full c hgf x).1
  have ht2 : ∀ x, Par.turn { c with phase := c.phase + 180 } (-(g * (Real.pi / 180))) x = c.turn (-(f * (Real.pi / 180))) x :=
    fun x => (turn_full c hgf x).2
  rw [ht2, pass_angle c hz]
  simp only [ht]

/-- C268: a neutron that stays between the walls of its channel falls freely along the axis `y` with the acceleration `G` to the exit.
Missing: the direction; `G` is described as a norm, but a positive one accelerates upwards (`C268_false`). -/
theorem C268_partial (c0 c : Par) (h : c0.new = .ok c) (hl : 0 < c.l) (hN : 0 < c.nelements) (hc : c.nu = 0 ∧ c.phase = 0)
    (hF : c.Flat) (hG : c.G = 0 ∨ 1e-10 ≤ c.l * |c.G| / 2)
    (ξ : Nat → ℝ × ℝ) (e : Event ℝ) (hz : e.r.z ≤ 0) (hv : 0 < e.v.z) (a : Event ℝ) (ha : a = flown c.grav e (-e.r.z / e.v.z)) (i j : ℤ)
    (hop : |a.r.x| ≤ c.w1 / 2 ∧ |a.r.y| ≤ c.h1 / 2) (hx : a.r.x < edge c.w1 c.k c.d (i + 1))
    (hy : a.r.y < edge c.h1 c.kh c.d (j + 1)) (T : ℝ) (hT : T = c.l / e.v.z) (hT1 : 1e-10 < T)
    (hin : ∀ τ, 0 ≤ τ → τ ≤ T → ∀ r, r = (flown c.grav a τ).r →
      (c.xlo i r.z < r.x ∧ r.x < c.xhi i r.z) ∧ c.ylo j r.z < r.y ∧ r.y < c.yhi j r.z) :
    trace c ξ e = flown c.grav a T ∧ (trace c ξ e).r.y = a.r.y + a.v.y * T + c.G * T ^ 2 / 2 := by
  have hT0 : 0 < T := lt_trans (by norm_num) hT1
  have haz : a.r.z = 0 := by rw [ha]; exact start_z hv
  have hav : a.v.z = e.v.z := by rw [ha, vz_flown]
  have a0 : (flown c.grav a 0).r = a.r := by
    unfold flown; ext <;> simp
  have hno : ∀ s, 0 ≤ s → s ≤ T → ∀ n M, ¬ c.Face i j n M (flown c.grav a s).r := by
    rintro s s0 s1 n M hf
    obtain ⟨⟨k1, k2⟩, k3, k4⟩ := hin s s0 s1 _ rfl
    rcases hf with ⟨h, -⟩ | ⟨h, -⟩ | ⟨h, -⟩ | ⟨h, -⟩ <;> linarith
  have hend : ∀ s, (flown c.grav a s).r.z = c.l → s = T := by
    intro s hs
    rw [z_flown, haz, hav, zero_add] at hs
    rw [hT, eq_div_iff hv.ne']; exact hs
  have hlt : ∀ s, (flown c.grav a s).r.z < c.l → s < T := by
    intro s hs
    rw [z_flown, haz, hav, zero_add] at hs
    rw [hT, lt_div_iff₀ hv]; exact hs
  have hnohit : ∀ n M e1 q, ¬ c.Hit i j n M a e1 q := by
    rintro n M e1 q ⟨s, s0, hf, -, hi, -⟩
    exact hno s s0.le (hlt s (hi s s0.le le_rfl).2).le n M hf
  have key : trace c ξ e = flown c.grav a T := by
    obtain ⟨N, b, h1, h2⟩ := C264_partial c0 c h hl hN hc hF hG ξ e hz hv a ha i j hop (by
      obtain ⟨⟨k1, k2⟩, k3, k4⟩ := hin 0 le_rfl hT0.le _ rfl
      rw [a0] at k1 k2 k3 k4
      exact ⟨⟨k1.le, k2.le⟩, k3.le, k4.le⟩) hx hy
    cases h1 with
    | step hs _ =>
      obtain ⟨n, M, e1, q, w, hh, -⟩ := hs
      exact absurd hh (hnohit n M e1 q)
    | refl =>
      rcases h2 with ⟨-, h2⟩ | ⟨h2, -⟩ | ⟨s, s0, s1, h2⟩ | h2
      · rcases h2 with ⟨s, -, h3, -, h4⟩ | ⟨n, M, e1, q, hh, -⟩
        · rw [h4, hend s h3]
        · exact absurd hh (hnohit n M e1 q)
      · omega
      · rcases h2 with h2 | ⟨n, M, hf, -⟩
        · have := hend s h2; linarith
        · exact absurd hf (hno s s0 (by linarith) n M)
      · rw [hav] at h2; linarith
  refine ⟨key, ?_⟩
  rw [key]
  simp only [flown, accel, Par.grav, if_true, V3.add_y, V3.smul_y]; ring

/-- the guide with an acceleration of the norm 9.8 -/
noncomputable def heavyGuide : Par := { black with G := 9.8 }
/-- the same after the initialization -/
noncomputable def heavyGuide1 : Par := { black1 with G := 9.8 }

theorem heavy_new : heavyGuide.new = .ok heavyGuide1 := by
  unfold Par.new
  rw [if_neg (by norm_num [heavyGuide, black]), if_neg (by norm_num [heavyGuide, black]), if_neg (by norm_num [heavyGuide, black])]
  simp only
  rw [if_neg (by norm_num [heavyGuide, black])]
  simp [heavyGuide, heavyGuide1, black, black1]

/-- a neutron on the axis -/
noncomputable def axial : Event ℝ := ⟨⟨0, 0, 0⟩, ⟨0, 0, 1000⟩, 0, 0, 0, 1⟩

theorem axial_inside (c : Par) (hc : c = heavyGuide1 ∨ c = black1) (τ : ℝ) (h0 : 0 ≤ τ) (h1 : τ ≤ 0.001) (r : V3 ℝ)
    (hr : r = (flown c.grav axial τ).r) : (c.xlo ((0 : ℤ) : ℝ) r.z < r.x ∧ r.x < c.xhi ((0 : ℤ) : ℝ) r.z) ∧
      c.ylo ((0 : ℤ) : ℝ) r.z < r.y ∧ r.y < c.yhi ((0 : ℤ) : ℝ) r.z := by
  have hx : r.x = 0 := by rw [hr]; rcases hc with rfl | rfl <;> norm_num [flown, accel, Par.grav, axial]
  have hy : r.y = τ ^ 2 / 2 * c.G := by rw [hr]; simp [flown, accel, Par.grav, axial]
  have hG : 0 ≤ c.G ∧ c.G ≤ 9.8 := by rcases hc with rfl | rfl <;> norm_num [heavyGuide1, black1, black]
  have hy0 : 0 ≤ r.y := by rw [hy]; exact mul_nonneg (by positivity) hG.1
  have hy1 : r.y ≤ 0.001 ^ 2 / 2 * 9.8 := by
    rw [hy]
    apply mul_le_mul _ hG.2 hG.1 (by norm_num)
    nlinarith
  rw [hx]
  rcases hc with rfl | rfl
  all_goals
    norm_num [Par.xlo, Par.xhi, Par.ylo, Par.yhi, edge, heavyGuide1, black1, black]
    constructor <;> linarith

theorem axial_rises (ξ : Nat → ℝ × ℝ) : (trace heavyGuide1 ξ axial).r.z = heavyGuide1.l ∧ (trace heavyGuide1 ξ axial).p = axial.p ∧ axial.p = 1 ∧
    axial.r.y < (trace heavyGuide1 ξ axial).r.y := by
  obtain ⟨h1, h2⟩ := C268_partial heavyGuide heavyGuide1 heavy_new (by norm_num [heavyGuide1, black1, black])
    (by norm_num [heavyGuide1, black1, black]) ⟨rfl, rfl⟩ (by simp [Par.Flat, heavyGuide1, black1, black])
    (by right; norm_num [heavyGuide1, black1, black]) ξ axial (by norm_num [axial]) (by norm_num [axial]) axial
    (by
      refine Event.ext ?_ ?_ rfl rfl ?_ rfl
      · ext <;> norm_num [flown, axial]
      · ext <;> norm_num [flown, axial]
      · norm_num [flown, axial]) 0 0
    ⟨by norm_num [axial, heavyGuide1, black1, black], by norm_num [axial, heavyGuide1, black1, black]⟩
    (by norm_num [axial, heavyGuide1, black1, black, edge]) (by norm_num [axial, heavyGuide1, black1, black, edge]) 0.001
    (by norm_num [axial, heavyGuide1, black1, black]) (by norm_num)
    (fun τ h0 h1 => axial_inside _ (.inl rfl) τ h0 h1)
  refine ⟨?_, by rw [h1]; rfl, rfl, ?_⟩
  · rw [h1, z_flown]; norm_num [axial, heavyGuide1, black1, black]
  · rw [h2]; norm_num [axial, heavyGuide1, black1, black]

/-- C268 is false: a neutron that enters horizontally into a guide with the norm of gravity 9.8 and touches no wall leaves it higher -/
theorem C268_false : ∃ (c0 c : Par) (e : Event ℝ), c0.new = .ok c ∧ c.G = 9.8 ∧ e.r.z = 0 ∧ e.v.y = 0 ∧ 0 < e.v.z ∧
    ∀ ξ, (trace c ξ e).r.z = c.l ∧ (trace c ξ e).p = e.p ∧ e.p = 1 ∧ e.r.y < (trace c ξ e).r.y :=
  ⟨heavyGuide, heavyGuide1, axial, heavy_new, rfl, rfl, rfl, by norm_num [axial], axial_rises⟩

/-- the guide with absorbing walls, turned by half a turn -/
noncomputable def turned (φ : ℝ) : Par := { black1 with phase := φ }

theorem turned_ok : ({ black with phase := -180 } : Par).new = .ok (turned (-180)) := by
  unfold Par.new
  rw [if_neg (by norm_num [black]), if_neg (by norm_num [black]), if_neg (by norm_num [black])]
  simp only
  rw [if_neg (by norm_num [black])]
  simp [black, black1, turned]

theorem turned_pos (ξ : Nat → ℝ × ℝ) : (trace (turned 180) ξ axial).p = 1 := by
  obtain ⟨h1, -⟩ := C268_partial black black1 black_new (by norm_num [black1, black])
    (by norm_num [black1, black]) ⟨rfl, rfl⟩ (by simp [Par.Flat, black1, black])
    (by left; rfl) ξ axial (by norm_num [axial]) (by norm_num [axial]) axial
    (by
      refine Event.ext ?_ ?_ rfl rfl ?_ rfl
      · ext <;> norm_num [flown, axial]
      · ext <;> norm_num [flown, axial]
      · norm_num [flown, axial]) 0 0
    ⟨by norm_num [axial, black1, black], by norm_num [axial, black1, black]⟩
    (by norm_num [axial, black1, black, edge]) (by norm_num [axial, black1, black, edge]) 0.001
    (by norm_num [axial, black1, black]) (by norm_num)
    (fun τ h0 h1 => axial_inside _ (.inr rfl) τ h0 h1)
  have ha : (turned 180).angle axial.t = 0 := by
    have h0 : (360 * (turned 180).nu * axial.t + (turned 180).phase) = 180 := by norm_num [turned, black1, black]
    have : fmodC 180 360 = 180 := by
      unfold fmodC
      have : Detector.truncInt ((180 : ℝ) / 360) = 0 := by
        unfold Detector.truncInt; norm_num
      rw [this]; norm_num
    unfold Par.angle
    rw [h0, this]
    norm_num
  have hl : (turned 180).l > 0 ∧ (turned 180).nelements > 0 := by norm_num [turned, black1, black]
  have ht : ∀ e : Event ℝ, (turned 180).turn 0 e = e := by
    intro e
    refine Event.ext ?_ ?_ rfl rfl rfl rfl
    · ext <;> simp [Par.turn, rotSet, rotApply]
    · ext <;> simp [Par.turn, rotSet, rotApply]
  have hp := pass_phase black1 180 0 ξ axial
  rw [trace_out, run_plain (by norm_num [black1, black]) (by norm_num [black1, black]) ⟨rfl, rfl⟩] at h1
  rw [trace_out]
  unfold Par.run
  rw [if_pos hl, if_pos (by right; norm_num [turned])]
  simp only [ha, neg_zero, ht]
  have e1 : (turned 180).pass 0 ξ axial = black1.pass 0 ξ axial := hp
  rw [e1]
  cases h2 : black1.pass 0 ξ axial with
  | error r =>
    rw [h2] at h1
    have := pass_error _ ξ _ _ h2
    have h3 : r.p = 1 := by
      have : out (.error r) = r := rfl
      rw [this] at h1; rw [h1]; rfl
    rw [h3] at this; norm_num at this
  | ok r =>
    rw [h2] at h1
    have : out (.ok r) = r := rfl
    rw [this] at h1
    show r.p = 1
    rw [h1]; rfl

theorem next_back (c : Par) (hc : c = turned (-180)) (i j : ℝ) (e : Event ℝ) (hv : e.v = ⟨0, 0, -1000⟩) (hz : e.r.z ≤ 1) : c.next i j e = none := by
  subst hc
  have hx : (turned (-180)).exit e = none := by
    rw [exit_eq (by norm_num [turned, black, black1]), if_neg]
    rintro ⟨-, h⟩
    rw [hv] at h
    have : ((turned (-180)).l - e.r.z) / (-1000 : ℝ) ≤ 0 := by
      apply div_nonpos_of_nonneg_of_nonpos
      · norm_num [turned, black, black1]; linarith
      · norm_num
    simp only at h
    linarith
  unfold Par.next
  rw [hx]
  have hsx : (0.5 : ℝ) * ((turned (-180)).w2c - (turned (-180)).w1c) = 0 := by norm_num [Par.w2c, Par.w1c, black, black1, turned]
  have hsy : (0.5 : ℝ) * ((turned (-180)).h2c - (turned (-180)).h1c) = 0 := by norm_num [Par.h2c, Par.h1c, black, black1, turned]
  have hg : (turned (-180)).g = ⟨0, 0, 0⟩ := rfl
  have hfold : ∀ s ∈ (turned (-180)).sides i j, (turned (-180)).test e none s = none := by
    intro s hs
    simp only [Par.sides, hsx, hsy, nzOf_eq, neg_zero, zero_mul, List.mem_cons, List.not_mem_nil, or_false] at hs
    rcases test_cases (turned (-180)) e none s with ⟨h, -⟩ | ⟨t, h1, h2, -⟩
    · exact h
    · exfalso
      unfold Par.sol solve2 at h1
      rw [if_pos (by rw [hg]; norm_num [V3.dot])] at h1
      split at h1
      · next h3 =>
        rw [hv] at h3
        apply h3
        rcases hs with rfl | rfl | rfl | rfl <;> norm_num [V3.dot]
      · cases h1
  have : ∀ L : List Side, (∀ s ∈ L, (turned (-180)).test e none s = none) → L.foldl ((turned (-180)).test e) none = none := by
    intro L
    induction L with
    | nil => intro _; rfl
    | cons a L ih =>
      intro h
      rw [List.foldl_cons, h a List.mem_cons_self]
      exact ih fun s hs => h s (List.mem_cons_of_mem _ hs)
  exact this _ hfold

theorem turned_neg (ξ : Nat → ℝ × ℝ) : (trace (turned (-180)) ξ axial).p = -1 := by
  have ha : (turned (-180)).angle axial.t = -Real.pi := by
    have h0 : (360 * (turned (-180)).nu * axial.t + (turned (-180)).phase) = -180 := by norm_num [turned, black1, black]
    have : fmodC (-180) 360 = -180 := by
      unfold fmodC
      have : Detector.truncInt ((-180 : ℝ) / 360) = 0 := by
        unfold Detector.truncInt; norm_num
      rw [this]; norm_num
    unfold Par.angle
    rw [h0, this]
    simp only
    rw [if_neg (by norm_num)]
    ring
  have hl : (turned (-180)).l > 0 ∧ (turned (-180)).nelements > 0 := by norm_num [turned, black1, black]
  rw [trace_out]
  cases h : (turned (-180)).run ξ axial with
  | error r =>
    unfold Par.run at h
    rw [if_pos hl, if_pos (by right; norm_num [turned])] at h
    simp only at h
    split at h
    · next r1 h1 => cases h; exact pass_error _ ξ _ _ h1
    · cases h
  | ok r =>
    exfalso
    unfold Par.run at h
    rw [if_pos hl, if_pos (by right; norm_num [turned])] at h
    simp only [ha, neg_neg] at h
    split at h
    · cases h
    · next r1 h1 =>
      have ht : (turned (-180)).turn Real.pi axial = ⟨⟨0, 0, 1⟩, ⟨0, 0, -1000⟩, 0, 0, 0, 1⟩ := by
        refine Event.ext ?_ ?_ rfl rfl rfl rfl
        · ext <;> norm_num [Par.turn, rotSet, rotApply, axial, turned, black1, black]
        · ext <;> norm_num [Par.turn, rotSet, rotApply, axial, turned, black1, black]
      rw [ht] at h1
      have hs : solve2 (-(turned (-180)).l * (turned (-180)).g.z / 2) (-(turned (-180)).l * (-1000)) (-(turned (-180)).l * 1) = some 0.001 := by
        unfold solve2
        rw [if_pos (by norm_num [Par.g]), if_pos (by norm_num [turned, black, black1])]
        norm_num [turned, black, black1]
      unfold Par.pass at h1
      have d0 : (0.001 : ℝ) > 0 := by norm_num
      simp only [hs, d0, if_true, not_true_eq_false, false_and, if_false] at h1
      split at h1
      · cases h1
      · split at h1
        · cases h1
        · split at h1
          · cases h1
          · unfold Par.loop at h1
            rw [next_back _ rfl _ _ _ (by
              ext <;> norm_num [propDtGrav, Par.g, turned, black, black1])
              (by norm_num [propDtGrav, Par.g, turned, black, black1])] at h1
            cases h1

/-- C267 is false: a full turn of the guide used as a chopper matters.  A neutron on the axis passes a guide that is turned by 180 degrees, and
is absorbed by one that is turned by -180 degrees -/
theorem C267_false : ¬ ∀ (c0 c : Par), c0.new = .ok c → 0 < c.l → 0 < c.nelements → c.Flat → ∀ ξ e,
    trace { c with phase := c.phase + 360 } ξ e = trace c ξ e := by
  intro h
  have := h _ _ turned_ok (by norm_num [turned, black1, black]) (by norm_num [turned, black1, black])
    (by simp [Par.Flat, turned, black1, black]) (fun _ => (0, 0)) axial
  have e1 : ({ turned (-180) with phase := (turned (-180)).phase + 360 } : Par) = turned 180 := by
    norm_num [turned]
  rw [e1] at this
  have h1 := turned_pos (fun _ => (0, 0))
  rw [this, turned_neg] at h1
  norm_num at h1

/-! ### the hypotheses are met -/

/-- a converging guide with two channels, reflecting walls and gravity -/
noncomputable def real2 (w2 : ℝ) : Par :=
  ⟨0.05, 0.1, w2, 0.1, 1, 0.99, 0.0219, 6.07, 2, 0.003, 2, 0.001, -1, -1, 3, -1, 1, -9.8, 0, 0, 0, 0, 0.0001, 0, 0, 0, 1, 0, 0, none⟩

theorem real2_new (w2 : ℝ) (h : w2 = 0.04 ∨ w2 = 0.05) : (real2 w2).new = .ok (real2 w2) := by
  unfold Par.new
  rw [if_neg (by norm_num [real2]), if_neg (by norm_num [real2]), if_neg (by norm_num [real2])]
  simp only
  rw [if_neg (by rcases h with rfl | rfl <;> norm_num [real2])]
  rcases h with rfl | rfl <;> norm_num [real2]

/-- a neutron that comes into the channel 1 -/
noncomputable def coming : Event ℝ := ⟨⟨0.01, 0, -1⟩, ⟨5, 5, 1000⟩, 0, 0, 0, 1⟩
/-- a neutron that comes to the wall between the channels -/
noncomputable def blocked : Event ℝ := ⟨⟨0, 0, -1⟩, ⟨0, 5, 1000⟩, 0, 0, 0, 1⟩

/-- `C264_outside`: the wall between the channels -/
example : (real2 0.04).new = .ok (real2 0.04) ∧ 0 < (real2 0.04).l ∧ 0 < (real2 0.04).nelements ∧ ((real2 0.04).nu = 0 ∧ (real2 0.04).phase = 0) ∧
    blocked.r.z ≤ 0 ∧ 0 < blocked.v.z ∧ ∀ i j : ℤ, ¬ (real2 0.04).Inside i j (flown (real2 0.04).grav blocked (-blocked.r.z / blocked.v.z)).r := by
  refine ⟨real2_new _ (.inl rfl), by norm_num [real2], by norm_num [real2], ⟨rfl, rfl⟩, by norm_num [blocked], by norm_num [blocked], ?_⟩
  rintro i j ⟨⟨h1, h2⟩, -⟩
  norm_num [flown, accel, Par.grav, blocked, real2, Par.xlo, Par.xhi, edge] at h1 h2
  have a1 : (i : ℝ) < 1 := by linarith
  have a2 : (0 : ℝ) < i := by linarith
  have a1' : i < 1 := by exact_mod_cast a1
  have a2' : 0 < i := by exact_mod_cast a2
  omega

/-- `C264_partial` and `C264_straight`: a neutron in one of two channels -/
example (w2 : ℝ) (h : w2 = 0.04 ∨ w2 = 0.05) (c : Par) (hc : c = real2 w2) (a : Event ℝ)
    (ha : a = flown c.grav coming (-coming.r.z / coming.v.z)) : c.new = .ok c ∧ 0 < c.l ∧ 0 < c.nelements ∧
    (c.nu = 0 ∧ c.phase = 0) ∧ c.Flat ∧ (c.G = 0 ∨ 1e-10 ≤ c.l * |c.G| / 2) ∧ coming.r.z ≤ 0 ∧ 0 < coming.v.z ∧
    (|a.r.x| ≤ c.w1 / 2 ∧ |a.r.y| ≤ c.h1 / 2) ∧ c.Inside ((1 : ℤ) : ℝ) ((0 : ℤ) : ℝ) a.r ∧ a.r.x < edge c.w1 c.k c.d ((1 : ℤ) + 1) ∧
    a.r.y < edge c.h1 c.kh c.d ((0 : ℤ) + 1) ∧ (w2 = 0.05 → c.w2 = c.w1 ∧ c.h2 = c.h1) := by
  have hr : a.r = ⟨0.015, 0.0049951, 0⟩ := by
    rw [ha, hc]
    ext <;> norm_num [flown, accel, Par.grav, coming, real2]
  rw [hr, hc]
  refine ⟨real2_new _ h, by norm_num [real2], by norm_num [real2], ⟨rfl, rfl⟩, by simp [Par.Flat, real2], by right; norm_num [real2],
    by norm_num [coming], by norm_num [coming], ⟨by norm_num [real2, abs_le], by norm_num [real2, abs_le]⟩, ?_, by norm_num [real2, edge],
    by norm_num [real2, edge], fun h => ⟨by norm_num [real2, h], rfl⟩⟩
  norm_num [Par.Inside, Par.xlo, Par.xhi, Par.ylo, Par.yhi, real2, edge]

/-- a neutron that is not marked as absorbed has passed -/
theorem run_ok (c : Par) (ξ : Nat → ℝ × ℝ) (e : Event ℝ) (h : (trace c ξ e).p ≠ -1) : c.run ξ e = .ok (trace c ξ e) := by
  rw [trace_out] at h ⊢
  cases hr : c.run ξ e with
  | ok r => rfl
  | error r =>
    exfalso
    rw [hr] at h
    apply h
    show r.p = -1
    unfold Par.run at hr
    split at hr
    · split at hr
      · simp only at hr
        split at hr
        · next h1 => cases hr; exact pass_error _ ξ _ _ h1
        · cases hr
      · exact pass_error _ ξ _ _ hr
    · cases hr

/-- `C265_energy`, `C266_weight` and `C266_exit`: a neutron passes a guide with gravity, and one is absorbed by a guide that is turned -/
example : ∃ (c : Par) (e r : Event ℝ) (ξ : Nat → ℝ × ℝ), c.G = 9.8 ∧ 0 ≤ e.p ∧ c.run ξ e = .ok r ∧ 0 < c.l ∧ 0 < c.nelements ∧
    (c.nu = 0 ∧ c.phase = 0) ∧ (trace c ξ e).p ≠ -1 ∧ e.r.y < r.r.y := by
  obtain ⟨h1, h2, h3, h4⟩ := axial_rises (fun _ => (0, 0))
  exact ⟨heavyGuide1, axial, _, fun _ => (0, 0), rfl, by norm_num [axial], run_ok _ _ _ (by rw [h2, h3]; norm_num),
    by norm_num [heavyGuide1, black1, black], by norm_num [heavyGuide1, black1, black], ⟨rfl, rfl⟩, by rw [h2, h3]; norm_num, h4⟩

/-- `C267_partial`: a guide with 10 turns per second -/
example : let c : Par := { black1 with nu := 10 }
    let e : Event ℝ := ⟨⟨0, 0, -1⟩, ⟨0, 0, 1000⟩, 0, 0, 0.001, 1⟩
    c.nu ≠ 0 ∧ 0 ≤ 360 * c.nu * e.t + c.phase ∧ ∀ k : ℤ, 360 * c.nu * e.t + c.phase ≠ 90 + 180 * k := by
  refine ⟨by norm_num, by norm_num [black1, black], fun k h => ?_⟩
  norm_num [black1, black] at h
  have a1 : (k : ℝ) < 0 := by linarith
  have a2 : (-1 : ℝ) < k := by linarith
  have a1' : k < 0 := by exact_mod_cast a1
  have a2' : -1 < k := by exact_mod_cast a2
  omega

/-- `C268_partial`: a neutron on the axis stays between the walls -/
example (r : V3 ℝ) (τ : ℝ) (h0 : 0 ≤ τ) (h1 : τ ≤ 0.001) (hr : r = (flown heavyGuide1.grav axial τ).r) :
    (heavyGuide1.xlo ((0 : ℤ) : ℝ) r.z < r.x ∧ r.x < heavyGuide1.xhi ((0 : ℤ) : ℝ) r.z) ∧
      heavyGuide1.ylo ((0 : ℤ) : ℝ) r.z < r.y ∧ r.y < heavyGuide1.yhi ((0 : ℤ) : ℝ) r.z :=
  axial_inside _ (.inl rfl) τ h0 h1 r hr

end Verif.McGrav
