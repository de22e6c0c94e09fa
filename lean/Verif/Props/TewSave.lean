import Verif.Lemmas.TewSave
/-!
Properties of the histogram of a monitor of position and time, energy or wavelength (C363).
-/

namespace Verif.TewSave
open Spec McMon McTew

/-- **C363** (partial): for a monitor with an area, a range and channels, the histogram has on every axis the channels of the monitor, and in every cell the
intensity and the squared intensity that the monitor counted in this cell. Missing: monitors that are accepted without a range or an area, see
`C363_range_false` and `C363_area_false`. -/
theorem C363_partial {type format : String} {W H lo hi db : ℝ} {nx ny nb : Nat} {m : Tew}
    (hm : Tew.new type format W H lo hi db nx ny nb = .ok m) (h : Hist) (hx : 0 < nx) (hy : 0 < ny) (hb : 0 < nb) (hH : H ≠ 0)
    (hr : hi ≠ 0 ∧ lo ≠ hi ∨ hi = 0 ∧ db ≠ 0) :
    ∃ g, getHistogram ⟨W, H, lo, hi, db, nx, ny, nb⟩ h = .ok g ∧ Equal g.x m.xmin m.xmax nx ∧ Equal g.y m.ymin m.ymax ny ∧
      Equal g.b m.bmin m.bmax nb ∧ g.b = m.edges ∧ ∀ i < nx, ∀ j < ny, ∀ k < nb,
        g.I i j k = (h.cell (flat ny nb i j k).toNat).p ∧ g.E2 i j k = (h.cell (flat ny nb i j k).toNat).p2 := by
  have hb' : (nb : ℝ) ≠ 0 := by exact_mod_cast hb.ne'
  have hx' : (nx : ℝ) ≠ 0 := by exact_mod_cast hx.ne'
  have hy' : (ny : ℝ) ≠ 0 := by exact_mod_cast hy.ne'
  obtain ⟨hW, hmx, hmx', hmy, hmy', l, u, d, hmb, hmb', hmd, hmn, hrange, hd, hu⟩ : W ≠ 0 ∧ m.xmin = -W / 2 ∧ m.xmax = W / 2 ∧ m.ymin = -H / 2 ∧ m.ymax = H / 2 ∧
      ∃ l u d, m.bmin = l ∧ m.bmax = u ∧ m.db = d ∧ m.nb = nb ∧ Core.range ⟨W, H, lo, hi, db, nx, ny, nb⟩ = .ok (l, u, d) ∧ d ≠ 0 ∧ u = l + nb * d := by
    unfold Tew.new at hm
    cases hk : kindOf type with
    | error e => rw [hk] at hm; simp [bind, Except.bind] at hm
    | ok kind =>
      rw [hk] at hm
      simp only [bind, Except.bind] at hm
      split_ifs at hm with h1 h2 h3 h4
      · simp only [Except.ok.injEq] at hm
        subst hm
        push Not at h2
        refine ⟨h2.1.ne', rfl, by ring, rfl, by ring, lo, hi, (hi - lo) / nb, rfl, rfl, rfl, rfl, ?_, ?_, by field_simp; ring⟩
        · unfold Core.range quot
          rw [if_pos h4, if_neg hb']
          rfl
        · rcases hr with hr | hr
          · exact div_ne_zero (sub_ne_zero.2 (Ne.symm hr.2)) hb'
          · exact absurd hr.1 h4
      · simp only [Except.ok.injEq] at hm
        subst hm
        push Not at h2 h4
        refine ⟨h2.1.ne', rfl, by ring, rfl, by ring, 0, nb * db + 0, db, rfl, rfl, rfl, rfl, ?_, ?_, by ring⟩
        · unfold Core.range
          rw [if_neg (not_not_intro h4)]
        · rcases hr with hr | hr
          · exact absurd h4 hr.1
          · exact hr.2
  refine ⟨_, getHistogram_eq ⟨W, H, lo, hi, db, nx, ny, nb⟩ h hx hy hW hH hrange hd hu, ?_, ?_, ?_, ?_, ?_⟩
  · rw [hmx, hmx']
    exact equal_range hx (by field_simp; ring)
  · rw [hmy, hmy']
    exact equal_range hy (by field_simp; ring)
  · rw [hmb, hmb']
    exact equal_range hb hu
  · unfold Tew.edges
    rw [hmn, hmb, hmd]
  · intro i _ j _ k _
    have : (flat ny nb i j k).toNat = (i * ny + j) * nb + k := by
      have e : flat ny nb i j k = (((i * ny + j) * nb + k : ℕ) : ℤ) := by
        unfold flat
        push_cast
        ring
      rw [e]
      rfl
    rw [this]
    exact ⟨rfl, rfl⟩

/-- a monitor with a range and one with the width of channels -/
example : (∃ m, Tew.new "energy" "table" 2 1 5 10 0 4 2 5 = .ok m) ∧ (∃ m, Tew.new "time" "McStas" 2 1 0 0 (1 / 2) 4 2 5 = .ok m) := by
  have h : ¬ ("energy" : String) = "time" := by decide
  constructor <;> simp only [Tew.new, kindOf, bind, Except.bind, h, if_false, if_true] <;> norm_num

/-- **C363** is false for a monitor with neither limits nor a width of channels, which are the values without settings: it is accepted, and there is no histogram. -/
theorem C363_range_false {type format : String} {W H lo : ℝ} {nx ny nb : Nat} (hk : ∃ k, kindOf type = .ok k) (hf : format = "table" ∨ format = "McStas")
    (hW : 0 < W) (hH : 0 < H) (hx : 0 < nx) (hy : 0 < ny) (h : Hist) :
    (∃ m, Tew.new type format W H lo 0 0 nx ny nb = .ok m) ∧ getHistogram ⟨W, H, lo, 0, 0, nx, ny, nb⟩ h = .error .zeroDivision := by
  obtain ⟨k, hk⟩ := hk
  constructor
  · unfold Tew.new
    rw [hk]
    simp only [bind, Except.bind]
    rw [if_neg (by rintro ⟨a, b⟩; rcases hf with hf | hf; exact a hf; exact b hf), if_neg (by push Not; exact ⟨hW, hH.le⟩), if_neg (by simp)]
    exact ⟨_, rfl⟩
  · have hx' : (nx : ℝ) ≠ 0 := by exact_mod_cast hx.ne'
    have hy' : (ny : ℝ) ≠ 0 := by exact_mod_cast hy.ne'
    have ex : (W / 2 - -W / 2) / nx ≠ 0 := div_ne_zero (fun e => by linarith) hx'
    have ey : (H / 2 - -H / 2) / ny ≠ 0 := div_ne_zero (fun e => by linarith) hy'
    have bx := boundaries_eq (lo := -W / 2) (hi := W / 2) (n := nx) ex (by field_simp; ring)
    have by' := boundaries_eq (lo := -H / 2) (hi := H / 2) (n := ny) ey (by field_simp; ring)
    unfold getHistogram Core.range
    simp only [quot, if_neg hx', if_neg hy', bind, Except.bind, bx, by', ne_eq, not_true_eq_false, if_false]
    simp [boundaries, arange, quot, bind, Except.bind]

example : ∃ k, kindOf "wavelength" = .ok k := ⟨.wavelength, by simp [kindOf]⟩

/-- **C363** is false for a monitor without height, which is accepted (`yheight<0` instead of `yheight<=0`). -/
theorem C363_area_false (h : Hist) : (∃ m, Tew.new "time" "table" 1 0 0 2 0 1 1 2 = .ok m) ∧
    getHistogram ⟨1, 0, 0, 2, 0, 1, 1, 2⟩ h = .error .zeroDivision := by
  constructor
  · simp only [Tew.new, kindOf, bind, Except.bind]
    norm_num
  · have bx := boundaries_eq (lo := -(1 : ℝ) / 2) (hi := 1 / 2) (d := 1) (n := 1) one_ne_zero (by norm_num)
    unfold getHistogram Core.range
    norm_num [quot, bind, Except.bind, bx, boundaries, arange, pure, Except.pure]

end Verif.TewSave
