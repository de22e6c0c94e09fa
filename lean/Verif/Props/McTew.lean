import Verif.Lemmas.McTew
import Mathlib.Tactic.NormNum
/-!
Properties of the monitor of position and time, energy or wavelength (C315 - C317).
-/

namespace Verif.McTew
open McStas McMon Kinem Flight Solid
open Classical

/-- C315, partial: each cell of the monitor of energy or wavelength has the neutrons that enter the monitor in this pixel with this
energy or wavelength, the total is that of all neutrons that enter the monitor with an
energy or wavelength of the range, and a neutron that is counted goes on from where it entered, all other ones from where they were; the monitor
of time does the same with the time before the flight to the monitor.  Missing: the time of flight at the monitor, see `C315_time_false`; a neutron that starts in the monitor, see `C315_start_false`; gravity; a flight through
an edge. -/
theorem C315_partial {V2K VS2E : ℝ} {type format : String} {Q : Event ℝ → ℝ} (hQ : Shows V2K VS2E type Q)
    (hf : format = "table" ∨ format = "McStas") {W H lo hi db : ℝ} (hW : 0 < W) (hH : 0 < H) (hb : lo < hi) (hb0 : hi ≠ 0)
    {nx ny nb : Nat} (hnx : 0 < nx) (hny : 0 < ny) (hnb : 0 < nb) {es : List (Event ℝ)}
    (he : ∀ e ∈ es, Ahead e ⟨W, H, 1e-4⟩ ∧ 0 ≤ e.p) :
    ∃ m h a, Tew.new type format W H lo hi db nx ny nb = .ok m ∧
      runAll (m.trace V2K VS2E ⟨false, 0⟩) (Hist.zero (nx * ny * nb)) es = .ok (h, es.map a) ∧
      (∀ i < nx, ∀ j < ny, ∀ k < nb, h.cell (k + (j + i * ny) * nb) = tally (fun e => ∃ s, Entry e ⟨W, H, 1e-4⟩ s ∧
        InCell (-W / 2) (W / 2) nx i (e.r.x + s * e.v.x) ∧ InCell (-H / 2) (H / 2) ny j (e.r.y + s * e.v.y) ∧
        InCell lo hi nb k (Q e)) es) ∧
      total h = tally (fun e => (lo ≤ Q e ∧ Q e ≤ hi) ∧ ∃ s, Entry e ⟨W, H, 1e-4⟩ s) es ∧
      ∀ e ∈ es, (∀ s, Entry e ⟨W, H, 1e-4⟩ s → lo ≤ Q e → Q e ≤ hi → a e = flown ⟨false, 0⟩ e s) ∧
        (((∀ s, ¬ InBox e.r e.v ⟨W, H, 1e-4⟩ s) ∨ Q e < lo ∨ hi < Q e) → a e = e) := by
  have hbx : ((nb : ℝ)) ≠ 0 := by exact_mod_cast hnb.ne'
  have hxx : ((nx : ℝ)) ≠ 0 := by exact_mod_cast hnx.ne'
  have hyy : ((ny : ℝ)) ≠ 0 := by exact_mod_cast hny.ne'
  -- the monitor
  obtain ⟨kd, hk, hv⟩ : ∃ kd, kindOf type = .ok kd ∧ ∀ m : Tew, m.kind = kd → ∀ e : Event ℝ, e.v ≠ 0 → m.value V2K VS2E e = some (Q e) := by
    rcases hQ with ⟨rfl, rfl⟩ | ⟨rfl, rfl⟩ | ⟨rfl, rfl⟩
    · refine ⟨.time, by simp [kindOf], fun m hm e _ => ?_⟩
      unfold Tew.value
      rw [hm]
      simp only [Option.some.injEq]
      ring
    · refine ⟨.energy, by simp [kindOf], fun m hm e _ => ?_⟩
      unfold Tew.value McMon.energy
      rw [hm]
      simp only
      rw [← speed2_sq, speed2]
    · refine ⟨.wavelength, by simp [kindOf], fun m hm e hev => ?_⟩
      unfold Tew.value wavelength
      rw [hm]
      have h1 : √(e.v.x * e.v.x + e.v.y * e.v.y + e.v.z * e.v.z) = length e.v := speed2_eq e
      have h2 : length e.v ≠ 0 := (length_pos hev).ne'
      simp only
      rw [h1, divD_ok h2, div_div]
  set m : Tew := ⟨kd, -W / 2, -(-W / 2), W / nx, -H / 2, -(-H / 2), H / ny, lo, hi, (hi - lo) / nb, nx, ny, nb⟩ with hm
  have hnew : Tew.new type format W H lo hi db nx ny nb = .ok m := by
    unfold Tew.new
    rw [hk]
    simp only [bind, Except.bind]
    rw [if_neg (by tauto), if_neg (by push Not; exact ⟨hW, hH.le⟩), if_neg (by push Not; intro h; exact absurd hb (not_lt.2 h)), if_pos hb0]
  set d : V3 ℝ := ⟨W, H, 1e-4⟩ with hd
  have hdm : (⟨m.xmax - m.xmin, m.ymax - m.ymin, 1e-4⟩ : V3 ℝ) = d := by
    rw [hd, hm]; ext <;> simp only <;> ring
  have hdz : (0 : ℝ) < d.z := by rw [hd]; norm_num
  -- the neutrons
  let sel : Event ℝ → Prop := fun e => (lo ≤ Q e ∧ Q e ≤ hi) ∧ ∃ s, Entry e d s
  let T : Event ℝ → ℝ := fun e => if h : ∃ s, Entry e d s then h.choose else 0
  have hT : ∀ e s, Entry e d s → T e = s := by
    intro e s hs
    have h : ∃ s, Entry e d s := ⟨s, hs⟩
    simp only [T, dif_pos h]
    exact entry_unique h.choose_spec hs
  let a : Event ℝ → Event ℝ := fun e => if sel e then flown ⟨false, 0⟩ e (T e) else e
  let idx : Event ℝ → ℤ := fun e => flat ny nb (clamp ⌊(e.r.x + T e * e.v.x - -W / 2) / (W / nx)⌋ nx)
    (clamp ⌊(e.r.y + T e * e.v.y - -H / 2) / (H / ny)⌋ ny) (clamp ⌊(Q e - lo) / ((hi - lo) / nb)⌋ nb)
  have htrace : ∀ e ∈ es, ∀ h : Hist, h.size = nx * ny * nb → m.trace V2K VS2E ⟨false, 0⟩ h e =
      if sel e then (h.add (idx e) e.p).map (·, a e) else .ok (h, a e) := by
    intro e hes h _
    obtain ⟨hA, hp⟩ := he e hes
    unfold Tew.trace
    rw [hv m rfl e hA.1]
    simp only
    by_cases hq : lo ≤ Q e ∧ Q e ≤ hi
    · rw [if_pos (show Q e ≥ m.bmin ∧ Q e ≤ m.bmax from hq), hdm]
      rcases box_entry (d := d) hW hH hdz hA with ⟨h1, h2⟩ | ⟨t0, t1, h1, h2, h3⟩
      · have hs : ¬ sel e := fun hc => h2 _ hc.2.choose_spec.1
        rw [h1, if_neg hs]
        simp only [a, if_neg hs]
      · have hs : sel e := ⟨hq, t0, h2⟩
        rw [h1, if_pos hs]
        have hfl : propDt ⟨false, 0⟩ t0 e = flown ⟨false, 0⟩ e t0 := by
          unfold propDt
          rw [if_neg (by norm_num; linarith), if_neg (by simp)]
          unfold propDtFree flown accel
          ext <;> simp <;> ring
        simp only [hfl]
        have hpe : (flown ⟨false, 0⟩ e t0).p = e.p := rfl
        rw [if_neg (by rw [hpe]; exact not_lt.2 hp)]
        have hidx : m.index (Q e) (flown ⟨false, 0⟩ e t0) = some (idx e) := by
          unfold Tew.index
          have r1 : (flown ⟨false, 0⟩ e t0).r.x = e.r.x + t0 * e.v.x := by simp [flown, accel]
          have r2 : (flown ⟨false, 0⟩ e t0).r.y = e.r.y + t0 * e.v.y := by simp [flown, accel]
          rw [r1, r2, divD_ok (show m.dx ≠ 0 from div_ne_zero hW.ne' hxx), divD_ok (show m.dy ≠ 0 from div_ne_zero hH.ne' hyy),
            divD_ok (show m.db ≠ 0 from div_ne_zero (by linarith) hbx)]
          simp only [idx, hT e t0 h2]
          rfl
        rw [hidx, hpe]
        simp only [a, if_pos hs, hT e t0 h2]
    · have hs : ¬ sel e := fun hc => hq hc.1
      rw [if_neg (show ¬ (Q e ≥ m.bmin ∧ Q e ≤ m.bmax) from hq), if_neg hs]
      simp only [a, if_neg hs]
  have hrange : ∀ e ∈ es, sel e → 0 ≤ idx e ∧ idx e < (nx * ny * nb : ℕ) := fun e _ _ =>
    (flat3 (a := 0) (b := 0) (c := 0) (clamp_range hnx) (clamp_range hny) (clamp_range hnb)).1
  obtain ⟨h, h1, h0, h2⟩ := run_in (sel := sel) (idx := idx) (a := a) es (Hist.zero (nx * ny * nb)) rfl (fun e he h hh => by convert htrace e he h hh) hrange
  refine ⟨m, h, a, hnew, h1, fun i hi' j hj k hk => ?_, ?_, fun e hes => ⟨fun s hs q1 q2 => ?_, fun hn => ?_⟩⟩
  · rw [h2]
    refine (zero_plus _).trans (tally_congr fun e hes => ?_)
    have hx' : ∀ s, Entry e d s → (clamp ⌊(e.r.x + s * e.v.x - -W / 2) / (W / nx)⌋ nx = i ↔
        InCell (-W / 2) (W / 2) nx i (e.r.x + s * e.v.x)) := by
      intro s hs
      have hb := hs.1.1
      rw [abs_le] at hb
      have hb1 : -W / 2 ≤ e.r.x + s * e.v.x := by have := hb.1; simp only [hd] at this; linarith
      rw [← cell_iff (by linarith) hi' hb1 hb.2]
      rw [show (W / 2 - -W / 2) = W by ring]
    have hy' : ∀ s, Entry e d s → (clamp ⌊(e.r.y + s * e.v.y - -H / 2) / (H / ny)⌋ ny = j ↔
        InCell (-H / 2) (H / 2) ny j (e.r.y + s * e.v.y)) := by
      intro s hs
      have hb := hs.1.2.1
      rw [abs_le] at hb
      have hb1 : -H / 2 ≤ e.r.y + s * e.v.y := by have := hb.1; simp only [hd] at this; linarith
      rw [← cell_iff (by linarith) hj hb1 hb.2]
      rw [show (H / 2 - -H / 2) = H by ring]
    have hz' : lo ≤ Q e → Q e ≤ hi → (clamp ⌊(Q e - lo) / ((hi - lo) / nb)⌋ nb = k ↔ InCell lo hi nb k (Q e)) :=
      fun q1 q2 => cell_iff hb hk q1 q2
    constructor
    · rintro ⟨⟨⟨q1, q2⟩, s, hs⟩, hi2⟩
      rw [(flat3 (a := i) (b := j) (c := k) (clamp_range hnx) (clamp_range hny) (clamp_range hnb)).2 hj hk, hT e s hs, hx' s hs, hy' s hs,
        hz' q1 q2] at hi2
      exact ⟨s, hs, hi2⟩
    · rintro ⟨s, hs, c1, c2, c3⟩
      have hnb' : (0 : ℝ) < nb := by exact_mod_cast hnb
      have q : lo ≤ Q e ∧ Q e ≤ hi := by
        rcases c3 with ⟨c3, c4⟩ | ⟨_, c3⟩
        · have hw : 0 < (hi - lo) / nb := div_pos (by linarith) hnb'
          have e1 : (0 : ℝ) ≤ k := Nat.cast_nonneg k
          have e2 : (k : ℝ) + 1 ≤ nb := by exact_mod_cast hk
          have e3 : nb * ((hi - lo) / nb) = hi - lo := by field_simp
          exact ⟨by nlinarith, by nlinarith⟩
        · exact ⟨by linarith, c3.le⟩
      refine ⟨⟨q, s, hs⟩, ?_⟩
      rw [(flat3 (a := i) (b := j) (c := k) (clamp_range hnx) (clamp_range hny) (clamp_range hnb)).2 hj hk, hT e s hs, hx' s hs, hy' s hs,
        hz' q.1 q.2]
      exact ⟨c1, c2, c3⟩
  · exact total_tally h0 (fun i => by rw [h2]; exact zero_plus _) hrange
  · simp only [a, if_pos (show sel e from ⟨⟨q1, q2⟩, s, hs⟩), hT e s hs]
  · refine if_neg fun hc => ?_
    rcases hn with hn | hn | hn
    · exact hn _ hc.2.choose_spec.1
    · exact absurd hc.1.1 (not_le.2 hn)
    · exact absurd hc.1.2 (not_le.2 hn)

/-- example: a neutron that flies along the beam to a monitor of energies -/
example : Shows 1.58825e-3 5.227e-6 "energy" (McMon.energy 5.227e-6) ∧ Ahead (⟨⟨0, 0, -1⟩, ⟨0, 0, 1000⟩, 0, 0, 0, 1⟩ : Event ℝ) ⟨1, 1, 1e-4⟩ ∧
    Entry (⟨⟨0, 0, -1⟩, ⟨0, 0, 1000⟩, 0, 0, 0, 1⟩ : Event ℝ) ⟨1, 1, 1e-4⟩ 9.9995e-4 := by
  refine ⟨.inr (.inl ⟨rfl, rfl⟩), ⟨fun h => by have := congrArg V3.z h; norm_num at this, fun s _ => ?_, fun s hs => ?_⟩, ?_, fun s hs => ?_⟩
  · norm_num
  · have := hs.2.2
    rw [abs_le] at this
    norm_num at this
    linarith [this.1]
  · unfold InBox; norm_num [abs_le]
  · have := hs.2.2
    rw [abs_le] at this
    norm_num at this ⊢
    linarith [this.1]

/-- C315 is false for the time of flight: a neutron is counted in the channel of the time when it left the component before the
monitor, not of the time when it enters the monitor. -/
theorem C315_time_false : ∃ (m : Tew) (e : Event ℝ) (h : Hist) (s : ℝ), Tew.new "time" "table" 1 1 0 2 0 1 1 2 = .ok m ∧
    Ahead e ⟨1, 1, 1e-4⟩ ∧ Entry e ⟨1, 1, 1e-4⟩ s ∧ InCell 0 2 2 1 ((e.t + s) * 1e3) ∧
    runAll (m.trace 1 1 ⟨false, 0⟩) (Hist.zero 2) [e] = .ok (h, [flown ⟨false, 0⟩ e s]) ∧ h.cell 0 = ⟨1, 1, 1⟩ ∧ h.cell 1 = ⟨0, 0, 0⟩ := by
  refine ⟨⟨.time, -1 / 2, -(-1 / 2), 1 / (1 : ℕ), -1 / 2, -(-1 / 2), 1 / (1 : ℕ), 0, 2, (2 - 0) / (2 : ℕ), 1, 1, 2⟩,
    ⟨⟨0, 0, -1⟩, ⟨0, 0, 500⟩, 0, 0, 0, 1⟩, ⟨2, fun m => if (m : ℤ) = 0 then ⟨1, 1, 1⟩ else ⟨0, 0, 0⟩⟩, 1.9999e-3, ?_,
    ⟨fun h => by have := congrArg V3.z h; norm_num at this, fun s _ => ?_, fun s hs => ?_⟩, ⟨?_, fun s hs => ?_⟩, ?_, ?_, by simp, by simp⟩
  · simp only [Tew.new, kindOf, bind, Except.bind, if_true]
    norm_num
  · norm_num
  · have := hs.2.2
    rw [abs_le] at this
    norm_num at this
    linarith [this.1]
  · unfold InBox; norm_num [abs_le]
  · have := hs.2.2
    rw [abs_le] at this
    norm_num at this ⊢
    linarith [this.1]
  · unfold InCell InBin; norm_num
  · have hbox : boxIntersect (⟨0, 0, -1⟩ : V3 ℝ) ⟨0, 0, 500⟩ ⟨1, 1, 1e-4⟩ = some (1.9999e-3, 2.0001e-3) := by
      unfold boxIntersect faces face
      norm_num [collect]
    have hbox' : boxIntersect (⟨0, 0, -1⟩ : V3 ℝ) ⟨0, 0, 500⟩ ⟨-(-1 / 2) - -1 / 2, -(-1 / 2) - -1 / 2, 1e-4⟩ = some (1.9999e-3, 2.0001e-3) := by
      rw [← hbox]; norm_num
    simp only [runAll, Tew.trace, Tew.value, hbox', bind, Except.bind]
    norm_num [propDt, propDtFree, Tew.index, divD, flat, clamp, Hist.add, Hist.zero, Cell.inc, Except.map, flown, accel]
    have e1 : ⌊(1 / 2 : ℝ)⌋ = 0 := by norm_num
    norm_num [e1]
    exact ⟨by ext <;> simp <;> norm_num, by ext <;> simp⟩

/-- C315 is false for a neutron that is already at the monitor, for example after another monitor at the same place: it is not
counted, and it is removed from the beam. -/
theorem C315_start_false : ∃ (m : Tew) (e : Event ℝ), Tew.new "time" "table" 1 1 0 2 0 1 1 2 = .ok m ∧ e.r = 0 ∧ 0 < e.p ∧
    InBox e.r e.v ⟨1, 1, 1e-4⟩ 0 ∧ ∃ h, runAll (m.trace 1 1 ⟨false, 0⟩) (Hist.zero 2) [e] = .ok (h, [{ e with p := -1 }]) ∧
    ∀ i, h.cell i = ⟨0, 0, 0⟩ := by
  refine ⟨⟨.time, -1 / 2, -(-1 / 2), 1 / (1 : ℕ), -1 / 2, -(-1 / 2), 1 / (1 : ℕ), 0, 2, (2 - 0) / (2 : ℕ), 1, 1, 2⟩,
    ⟨⟨0, 0, 0⟩, ⟨0, 0, 500⟩, 0, 0, 0, 1⟩, ?_, rfl, one_pos, ?_, Hist.zero 2, ?_, fun i => rfl⟩
  · simp only [Tew.new, kindOf, bind, Except.bind, if_true]
    norm_num
  · unfold InBox; norm_num [abs_le]
  · have hbox : boxIntersect (⟨0, 0, 0⟩ : V3 ℝ) ⟨0, 0, 500⟩ ⟨-(-1 / 2) - -1 / 2, -(-1 / 2) - -1 / 2, 1e-4⟩ = some (-1e-7, 1e-7) := by
      unfold boxIntersect faces face
      norm_num [collect]
    simp only [runAll, Tew.trace, Tew.value, hbox, bind, Except.bind]
    norm_num [propDt, absorb]

/-- C315 is false for a monitor without height: it is not refused, and the channel of a neutron is not a number. -/
theorem C315_area_false : ∃ (m : Tew) (e : Event ℝ), Tew.new "time" "table" 1 0 0 2 0 1 1 2 = .ok m ∧ 0 < e.p ∧
    runAll (m.trace 1 1 ⟨false, 0⟩) (Hist.zero 2) [e] = .error .undefinedBehaviour := by
  refine ⟨⟨.time, -1 / 2, -(-1 / 2), 1 / (1 : ℕ), -0 / 2, -(-0 / 2), 0 / (1 : ℕ), 0, 2, (2 - 0) / (2 : ℕ), 1, 1, 2⟩,
    ⟨⟨0, -1, 0⟩, ⟨0, 500, 0⟩, 0, 0, 0, 1⟩, ?_, one_pos, ?_⟩
  · simp only [Tew.new, kindOf, bind, Except.bind, if_true]
    norm_num
  · have hbox : boxIntersect (⟨0, -1, 0⟩ : V3 ℝ) ⟨0, 500, 0⟩ ⟨-(-1 / 2) - -1 / 2, -(-0 / 2) - -0 / 2, 1e-4⟩ = some (2e-3, 2e-3) := by
      unfold boxIntersect faces face
      norm_num [collect]
    simp only [runAll, Tew.trace, Tew.value, hbox, bind, Except.bind]
    norm_num [propDt, propDtFree, Tew.index, divD]

/-- the keywords: exactly the three types and the two formats are accepted, in a monitor with an area and a range -/
theorem C315_keywords {type format : String} {W H lo hi db : ℝ} (hW : 0 < W) (hH : 0 < H) (hb : lo < hi) {nx ny nb : Nat} :
    (∃ m, Tew.new type format W H lo hi db nx ny nb = .ok m) ↔
    (type = "time" ∨ type = "energy" ∨ type = "wavelength") ∧ (format = "table" ∨ format = "McStas") := by
  unfold Tew.new kindOf
  constructor
  · rintro ⟨m, h⟩
    constructor
    · by_contra hc
      push Not at hc
      rw [if_neg hc.1, if_neg hc.2.1, if_neg hc.2.2] at h
      simp [bind, Except.bind] at h
    · by_contra hc
      push Not at hc
      split_ifs at h <;> simp [bind, Except.bind, hc] at h
  · rintro ⟨h1, h2⟩
    have h3 : ¬ (format ≠ "table" ∧ format ≠ "McStas") := by tauto
    have h4 : ¬ (W ≤ 0 ∨ H < 0) := by push Not; exact ⟨hW, hH.le⟩
    have h5 : ¬ (lo ≥ hi ∧ hi > 0) := fun hc => absurd hb (not_lt.2 hc.1)
    rcases h1 with rfl | rfl | rfl <;> simp [bind, Except.bind, h3, h4, h5]

/-- C316: the intensity of the table is per square centimetre and per second, electronvolt or ångström: times the size of the cell
in these units it is the intensity of the cell. -/
theorem C316_density {m : Tew} (hx : m.dx ≠ 0) (hy : m.dy ≠ 0) (hb : m.db ≠ 0) (c : Cell) :
    ∃ I, m.density c = some I ∧ I * ((100 * m.dx) * (100 * m.dy)) *
      (match m.kind with | .time => m.db / 1000 | .energy => m.db / 1000 | .wavelength => m.db) = c.p := by
  unfold Tew.density
  rw [divD_ok hx]
  simp only [Option.bind_eq_bind, Option.bind_some]
  rw [divD_ok hy]
  simp only [Option.bind_some]
  rw [divD_ok hb]
  refine ⟨_, rfl, ?_⟩
  cases m.kind <;> simp only [Kind.multiplier] <;> field_simp <;> ring

/-- example: a monitor of 10 cm by 10 cm with channels of 1 ms -/
example : ∃ m, Tew.new "time" "table" 0.1 0.1 0 20 0 1 1 20 = .ok m ∧ m.dx ≠ 0 ∧ m.dy ≠ 0 ∧ m.db ≠ 0 := by
  refine ⟨⟨.time, -0.1 / 2, -(-0.1 / 2), 0.1 / (1 : ℕ), -0.1 / 2, -(-0.1 / 2), 0.1 / (1 : ℕ), 0, 20, (20 - 0) / (20 : ℕ), 1, 1, 20⟩,
    ?_, by norm_num, by norm_num, by norm_num⟩
  simp only [Tew.new, kindOf, bind, Except.bind, if_true]
  norm_num

/-- C316, partial: with an upper limit the edges in the head of the table divide the range into equal channels.  Missing: a lower
limit with the width of the channels, see `C316_axis_false`. -/
theorem C316_axis_partial {type format : String} {W H lo hi db : ℝ} (hi0 : hi ≠ 0) {nx ny nb : Nat} (hnb : 0 < nb) {m : Tew}
    (h : Tew.new type format W H lo hi db nx ny nb = .ok m) :
    m.edges.length = nb + 1 ∧ m.edges.head? = some lo ∧ m.edges.getLast? = some hi ∧
    ∀ k (hk : k + 1 < m.edges.length), m.edges[k + 1] - m.edges[k] = (hi - lo) / nb := by
  have hn : (nb : ℝ) ≠ 0 := by exact_mod_cast hnb.ne'
  have hm : m.bmin = lo ∧ m.db = (hi - lo) / nb ∧ m.nb = nb := by
    unfold Tew.new at h
    cases hk : kindOf type with
    | error x => rw [hk] at h; simp [bind, Except.bind] at h
    | ok kd =>
      rw [hk] at h
      simp only [bind, Except.bind, if_pos hi0] at h
      split_ifs at h
      simp only [Except.ok.injEq] at h
      rw [← h]
      exact ⟨rfl, rfl, rfl⟩
  have hE : m.edges = (List.range (nb + 1)).map fun k : ℕ => lo + k * ((hi - lo) / nb) := by
    unfold Tew.edges
    rw [hm.1, hm.2.1, hm.2.2]
  simp only [hE]
  refine ⟨by simp, by simp [List.range_succ_eq_map], ?_, fun k hk => ?_⟩
  · rw [List.range_succ]
    simp only [List.map_append, List.map_cons, List.map_nil, List.getLast?_append, List.getLast?_singleton, Option.some_or, Option.some.injEq]
    field_simp
    ring
  · simp only [List.getElem_map, List.getElem_range]
    push_cast
    ring

/-- C316 is false for a lower limit with the width of the channels: the lower limit is ignored. -/
theorem C316_axis_false : ∃ m, Tew.new "time" "table" 1 1 5 0 1 1 1 10 = .ok m ∧ m.db = 1 ∧ m.edges.head? = some 0 := by
  refine ⟨⟨.time, -1 / 2, -(-1 / 2), 1 / (1 : ℕ), -1 / 2, -(-1 / 2), 1 / (1 : ℕ), 0, (10 : ℕ) * 1 + 0, 1, 1, 1, 10⟩, ?_, rfl, ?_⟩
  · simp only [Tew.new, kindOf, bind, Except.bind, if_true]
    norm_num
  · unfold Tew.edges
    simp [List.range_succ_eq_map]

theorem stdv_eq {run : ℝ} (hr : run ≠ 0) {c : Cell} (hp : 0 < c.p) (hp2 : 0 < c.p2) : stdv run c =
    some (if c.p2 / c.p ^ 2 - 1 / run > 1 then 1 else if c.p2 / c.p ^ 2 - 1 / run < 0 then 0 else √(c.p2 / c.p ^ 2 - 1 / run)) := by
  unfold stdv
  rw [divD_ok hr]
  simp only [Option.bind_eq_bind, Option.bind_some]
  rw [if_pos hp2, divD_ok hp.ne']
  simp only [Option.bind_some]
  rw [divD_ok hp.ne']
  simp only [Option.bind_some, div_div, pow_two]

/-- C317, partial: if the number of runs were the number of neutrons, the error of the table would be the relative statistical error of
the intensity, from the spread of the weights of all neutrons, where a neutron that is not counted has the weight 0, and the error of the total
its statistical error.  Missing: the
number of runs is always 1, see `C317_zero_false` and `C317_total_false`. -/
theorem C317_partial {sel : Event ℝ → Prop} {es : List (Event ℝ)} (hp : ∀ e ∈ es, 0 ≤ e.p) (hs : ∃ e ∈ es, sel e ∧ 0 < e.p) :
    ∃ s, stdv es.length (tally sel es) = some s ∧
      s * (tally sel es).p = √(spread (es.map fun e => if sel e then e.p else 0)) ∧
      totalErr es.length (tally sel es) = some √(spread (es.map fun e => if sel e then e.p else 0)) := by
  obtain ⟨t1, t2⟩ := tally_weights sel es
  set ws := es.map fun e => if sel e then e.p else 0 with hws
  have hw : ∀ w ∈ ws, 0 ≤ w := by
    intro w hw
    obtain ⟨e, he, rfl⟩ := List.mem_map.1 hw
    split_ifs
    · exact hp e he
    · exact le_rfl
  obtain ⟨e, he, hse, hpe⟩ := hs
  have hmem : e.p ∈ ws := List.mem_map.2 ⟨e, he, if_pos hse⟩
  have hsum : 0 < ws.sum := hpe.trans_le (List.single_le_sum hw _ hmem)
  have hsum2 : 0 < (ws.map (· ^ 2)).sum := (pow_pos hpe 2).trans_le (List.single_le_sum (fun x hx => by
    obtain ⟨w, _, rfl⟩ := List.mem_map.1 hx; positivity) _ (List.mem_map_of_mem (f := fun x : ℝ => x ^ 2) hmem))
  have hne : ws ≠ [] := List.ne_nil_of_mem hmem
  have hlen : (es.length : ℝ) = ws.length := by rw [hws, List.length_map]
  have hl : (0 : ℝ) < es.length := by rw [hlen]; exact_mod_cast List.length_pos_iff.2 hne
  have hsp := spread_eq hne
  have hsp0 := spread_nonneg ws
  have hup := (sq_le hw).2
  rw [stdv_eq hl.ne' (by rw [t1]; exact hsum) (by rw [t2]; exact hsum2), t1, t2]
  have key : (ws.map (· ^ 2)).sum / ws.sum ^ 2 - 1 / es.length = spread ws / ws.sum ^ 2 := by
    rw [hsp, hlen]
    field_simp
  rw [key]
  have h0 : 0 ≤ spread ws / ws.sum ^ 2 := by positivity
  have h1 : spread ws / ws.sum ^ 2 ≤ 1 := by
    rw [div_le_one (by positivity), hsp]
    have : 0 ≤ ws.sum ^ 2 / (ws.length : ℝ) := by positivity
    linarith
  rw [if_neg (not_lt.2 h1), if_neg (not_lt.2 h0)]
  have hroot : √(spread ws / ws.sum ^ 2) * ws.sum = √(spread ws) := by
    rw [Real.sqrt_div hsp0, Real.sqrt_sq hsum.le]
    field_simp
  refine ⟨_, rfl, hroot, ?_⟩
  unfold totalErr
  rw [divD_ok hl.ne']
  simp only [Option.bind_eq_bind, Option.bind_some]
  rw [t1, t2, if_pos hsum, div_div, ← pow_two, key, if_neg (not_lt.2 h0)]
  simp only [Option.bind_some, Option.some.injEq]
  rw [mul_comm, hroot]

/-- example: two of three neutrons are counted -/
example : let es : List (Event ℝ) := [⟨0, 0, 0, 0, 0, 1⟩, ⟨0, 0, 0, 0, 1, 1⟩, ⟨0, 0, 0, 0, 1, 2⟩]
    (∀ e ∈ es, 0 ≤ e.p) ∧ (∃ e ∈ es, e.t = 1 ∧ 0 < e.p) ∧ spread (es.map fun e => if e.t = 1 then e.p else 0) = 2 := by
  refine ⟨?_, ⟨⟨0, 0, 0, 0, 1, 1⟩, by simp, rfl, by norm_num⟩, ?_⟩
  · simp
  · unfold spread; norm_num

/-- C317 is false: whatever neutrons of positive weights are counted in a cell, the error in the table is 0; also where the spread of
the weights is not 0. -/
theorem C317_zero_false : (∀ (sel : Event ℝ → Prop) (es : List (Event ℝ)), (∀ e ∈ es, 0 < e.p) → stdv runNum (tally sel es) = some 0) ∧
    ∃ (sel : Event ℝ → Prop) (es : List (Event ℝ)), (∀ e ∈ es, 0 < e.p) ∧
      0 < spread (es.map fun e => if sel e then e.p else 0) := by
  refine ⟨fun sel es hp => ?_, fun e => e.t = 1, [⟨0, 0, 0, 0, 1, 1⟩, ⟨0, 0, 0, 0, 1, 2⟩], by simp, ?_⟩
  · obtain ⟨t1, t2⟩ := tally_weights sel es
    set ws := es.map fun e => if sel e then e.p else 0 with hws
    have hw : ∀ w ∈ ws, 0 ≤ w := by
      intro w hw
      obtain ⟨e, he, rfl⟩ := List.mem_map.1 hw
      split_ifs
      · exact (hp e he).le
      · exact le_rfl
    obtain ⟨h1, h2⟩ := sq_le hw
    by_cases hs : ∃ e ∈ es, sel e
    · obtain ⟨e, he, hse⟩ := hs
      have hmem : e.p ∈ ws := List.mem_map.2 ⟨e, he, if_pos hse⟩
      have hsum : 0 < ws.sum := (hp e he).trans_le (List.single_le_sum hw _ hmem)
      have hsum2 : 0 < (ws.map (· ^ 2)).sum := (pow_pos (hp e he) 2).trans_le (List.single_le_sum (fun x hx => by
        obtain ⟨w, _, rfl⟩ := List.mem_map.1 hx; positivity) _ (List.mem_map_of_mem (f := fun x : ℝ => x ^ 2) hmem))
      rw [stdv_eq (by norm_num [runNum]) (by rw [t1]; exact hsum) (by rw [t2]; exact hsum2), t1, t2, runNum]
      have h3 : (ws.map (· ^ 2)).sum / ws.sum ^ 2 ≤ 1 := (div_le_one (by positivity)).2 h2
      rw [if_neg (by norm_num; linarith)]
      congr 1
      split_ifs with h4
      · rfl
      · rw [Real.sqrt_eq_zero']; linarith
    · push Not at hs
      have hz : ws = List.replicate es.length 0 := by
        rw [hws, List.eq_replicate_iff]
        exact ⟨by simp, fun x hx => by
          obtain ⟨e, he, rfl⟩ := List.mem_map.1 hx
          exact if_neg (hs e he)⟩
      have hp2 : (tally sel es).p2 = 0 := by rw [t2, hz]; simp
      unfold stdv
      rw [divD_ok (by norm_num [runNum])]
      simp only [Option.bind_eq_bind, Option.bind_some]
      rw [if_neg (by rw [hp2]; exact lt_irrefl _)]
      simp
  · unfold spread; norm_num

/-- C317 is false of the total: as soon as two neutrons of positive weight are counted, the error of the total intensity is not a
number. -/
theorem C317_total_false {sel : Event ℝ → Prop} {es : List (Event ℝ)} (hp : ∀ e ∈ es, 0 < e.p)
    (h2 : 2 ≤ (es.filter (sel ·)).length) : totalErr runNum (tally sel es) = none := by
  obtain ⟨h3, h4⟩ := sq_lt (ws := (es.filter (sel ·)).map (·.p)) (fun w hw => by
    obtain ⟨e, he, rfl⟩ := List.mem_map.1 hw
    exact hp e (List.mem_filter.1 he).1) (by simpa using h2)
  have t1 : (tally sel es).p = ((es.filter (sel ·)).map (·.p)).sum := rfl
  have t2 : (tally sel es).p2 = (((es.filter (sel ·)).map (·.p)).map (· ^ 2)).sum := by
    unfold tally; simp only [List.map_map]; rfl
  unfold totalErr
  rw [divD_ok (by norm_num [runNum]), t1, t2]
  simp only [Option.bind_eq_bind, Option.bind_some]
  rw [if_pos h3, if_pos]
  · rfl
  · rw [runNum, div_div, ← pow_two, sub_neg, div_one]
    exact (div_lt_one (by positivity)).2 h4

/-- example: two neutrons -/
example : ∀ e ∈ ([⟨0, 0, 0, 0, 1, 1⟩, ⟨0, 0, 0, 0, 1, 2⟩] : List (Event ℝ)), 0 < e.p := by simp

end Verif.McTew
