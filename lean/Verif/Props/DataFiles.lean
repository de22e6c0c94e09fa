import Verif.Lemmas.DataFiles
import Verif.Lemmas.Kinem
/-!
Properties of files with reflections and densities of states.
-/

namespace Verif.DataFiles
open Facility Spec Kinem
open Classical

/-! ### C243 -/

/-- A laz file is read: the peaks are those of the reflections in the rows, in the columns that the comments declare, sorted by the
momentum transfer, however the columns and the comments are arranged. -/
theorem C243_laz {env : Env} {ls : List Line} {L : Peaks.Lat} {c : Layout} {nb : ℤ} {coh inc abs : ℝ} {rs : List Refl}
    (h : LazFile env ls L c nb coh inc abs rs) (width dw : ℝ) :
    ∃ z, parseLaz env (fileText ls) width dw = .ok z ∧ z.lattice = L ∧ z.peaks.Perm (rs.map (peakOf L width dw)) ∧
      z.peaks.Pairwise fun a b => a.q ≤ b.q := by
  obtain ⟨xs, h1, -⟩ := parseLaz_file h width dw
  refine ⟨_, h1, rfl, List.perm_insertionSort _ _, ?_⟩
  have : Std.Total (fun a b : Peak => a.q ≤ b.q) := ⟨fun a b => le_total a.q b.q⟩
  have : IsTrans Peak (fun a b : Peak => a.q ≤ b.q) := ⟨fun a b c hab hbc => le_trans hab hbc⟩
  exact List.pairwise_insertionSort _ _

/-- two reflections, the columns declared in another order, and comments in between -/
example : LazFile env0 lines0 lat0 layout0 4 1 2 3 [⟨⟨2, 0, 0⟩, 7, 6⟩, ⟨⟨1, 1, 1⟩, 9, 8⟩] := laz0

/-- If the file tells the structure factor, it is squared: the layout says which one it is. -/
theorem C243_squared {env : Env} {ls : List Line} {L : Peaks.Lat} {c : Layout} {nb : ℤ} {coh inc abs : ℝ} {rs : List Refl}
    (h : LazFile env ls L c nb coh inc abs rs) (width dw : ℝ) {row : List Text} (hr : row ∈ data ls) :
    ∃ z p f, parseLaz env (fileText ls) width dw = .ok z ∧ p ∈ z.peaks ∧ RealAt env row c.f f ∧
      p.F2 = if c.squared then f else f ^ 2 := by
  obtain ⟨z, h1, -, h2, -⟩ := C243_laz h width dw
  obtain ⟨r, hr', hs⟩ := forall2_mem h.rows hr
  obtain ⟨-, -, -, -, f, hf, hF⟩ := hs
  exact ⟨z, peakOf L width dw r, f, h1, h2.mem_iff.mpr (List.mem_map.mpr ⟨r, hr', rfl⟩), hf, hF⟩

/-- a row of the file -/
example : W ["2", "0", "0", "7", "6"] ∈ data lines0 := by decide

/-! ### C244 -/

/-- A comment line with a label of its own, which declares neither a column nor a cross section and ends with a newline, can be added
anywhere: nothing else changes. -/
theorem C244_partial {env : Env} {a b : List Line} {L : Peaks.Lat} {c : Layout} {nb : ℤ} {coh inc abs : ℝ} {rs : List Refl}
    (h : LazFile env (a ++ b) L c nb coh inc abs rs) {s : Text} {ws : List Text} (hok : (Line.comment s ws).Ok)
    (hw : ws ≠ [] → ∃ k, Label ws k) (hl : ∀ k, Label ws k → ∀ ws' ∈ comments (a ++ b), ¬ Label ws' k)
    (hp : ∀ w ∈ ws.head?, ¬ "column".toList <+: w ∧ ¬ "sigma".toList <+: w) (width dw : ℝ) :
    ∃ z z', parseLaz env (fileText (a ++ b)) width dw = .ok z ∧ parseLaz env (fileText (a ++ .comment s ws :: b)) width dw = .ok z' ∧
      z'.lattice = z.lattice ∧ z'.peaks = z.peaks ∧ z'.xs.Perm z.xs := by
  obtain ⟨xs, h1, h2⟩ := parseLaz_file h width dw
  obtain ⟨xs', h1', h2'⟩ := parseLaz_file (LazFile.insert h hok hw hl hp) width dw
  exact ⟨_, _, h1, h1', rfl, rfl, h2'.trans h2.symm⟩

/-- the comment `# end` -/
example : (cl ["end"]).Ok ∧ (W ["end"] ≠ [] → ∃ k, Label (W ["end"]) k) ∧
    (∀ k, Label (W ["end"]) k → ∀ ws' ∈ comments lines0, ¬ Label ws' k) ∧
    ∀ w ∈ (W ["end"]).head?, ¬ "column".toList <+: w ∧ ¬ "sigma".toList <+: w :=
  insert0 "end" (by decide) (by decide) (by decide) (by decide) (by decide)

/-- Comments are not free: one that begins with a word another comment begins with makes the file unreadable. -/
theorem C244_duplicate {ls : List Line} {s : Text} {ws ws' : List Text} {k : Text} (h : ∀ l ∈ ls, l.Ok) (hl : Labelled (comments ls))
    (hok : (Line.comment s ws).Ok) (hk : Label ws k) (hm : ws' ∈ comments ls) (hk' : Label ws' k) (env : Env) (width dw : ℝ) :
    parseLaz env (fileText (ls ++ [.comment s ws])) width dw = .error .runtimeError ∧
      parseLau env (fileText (ls ++ [.comment s ws])) = .error .runtimeError := by
  have := readComments_error h hl hok hk hm hk'
  constructor
  · unfold parseLaz; rw [this]; rfl
  · unfold parseLau; rw [this]; rfl

/-- the remark `# CELL is cubic` after the comment with the cell -/
example : (∀ l ∈ lines0, l.Ok) ∧ Labelled (comments lines0) ∧ (cl ["CELL", "is", "cubic"]).Ok ∧
    Label (W ["CELL", "is", "cubic"]) "CELL".toList ∧ W ["CELL", "4", "4", "4", "90", "90", "90"] ∈ comments lines0 ∧
    Label (W ["CELL", "4", "4", "4", "90", "90", "90"]) "CELL".toList :=
  ⟨laz0.ok, laz0.labelled, cl_ok _ (by decide) (by decide), of_label (by decide), by decide, of_label (by decide)⟩

/-- It is not true that a comment can be added to a readable file. -/
theorem C244_false : ¬ ∀ (env : Env) (ls : List Line) (L : Peaks.Lat) (c : Layout) (nb : ℤ) (coh inc abs : ℝ) (rs : List Refl)
    (s : Text) (ws : List Text), LazFile env ls L c nb coh inc abs rs → (Line.comment s ws).Ok →
    ∃ z, parseLaz env (fileText (ls ++ [.comment s ws])) 0 1 = .ok z := by
  intro h
  obtain ⟨z, hz⟩ := h env0 lines0 lat0 layout0 4 1 2 3 _ (flat (W ["CELL", "is", "cubic"])) (W ["CELL", "is", "cubic"]) laz0
    (cl_ok _ (by decide) (by decide))
  have := (C244_duplicate (k := "CELL".toList) (ws' := W ["CELL", "4", "4", "4", "90", "90", "90"]) laz0.ok laz0.labelled
    (cl_ok ["CELL", "is", "cubic"] (by decide) (by decide)) (of_label (by decide)) (by decide) (of_label (by decide)) env0 0 1).1
  have hh := hz.symm.trans this
  cases hh

/-- A comment after the numbers of a row is removed together with the newline, so that the next row is appended to this row and its
reflection is lost, silently. -/
theorem C244_lost {env : Env} {ls : List Line} {L : Peaks.Lat} {c : Layout} {nb : ℤ} {coh inc abs : ℝ} {rs : List Refl}
    (h : LazFile env ls L c nb coh inc abs rs) (width dw : ℝ) {s s' w cm : Text} {ws ws' : List Text} {r : Refl}
    (h1 : (Line.row s (w :: ws)).Ok) (hr : c.Says env (w :: ws) r) (h2 : (Line.row s' ws').Ok) (hc : '\n' ∉ cm) :
    ∃ z, parseLaz env (fileText ls ++ (s ++ " #".toList ++ cm ++ ['\n'] ++ s' ++ ['\n'])) width dw = .ok z ∧
      z.peaks.Perm ((rs ++ [r]).map (peakOf L width dw)) := by
  rw [inline_comment h.ok h1 h2 hc]
  have hok : (Line.row (s ++ ' ' :: s') (w :: (ws ++ ws'))).Ok := by
    refine ⟨spells_join h1.1 h2.1, ?_, ?_⟩
    · have a := h1.2.1
      have b := h2.2.1
      simp [a, b]
    · have a := h1.2.2
      have b := h2.2.2
      simp [a, b]
  obtain ⟨z, e1, -, e2, -⟩ := C243_laz (LazFile.add h hok (says_append hr)) width dw
  exact ⟨z, e1, e2⟩

/-- two more rows, the first one with a comment -/
example : (rl ["2", "2", "0", "7", "6"]).Ok ∧ layout0.Says env0 (W ["2", "2", "0", "7", "6"]) ⟨⟨2, 2, 0⟩, 7, 6⟩ ∧
    (rl ["3", "1", "1", "7", "6"]).Ok ∧ '\n' ∉ " strong".toList := by
  refine ⟨rl_ok _ (by decide) (by decide) (by decide), ?_, rl_ok _ (by decide) (by decide) (by decide), by decide⟩
  have := says0 (a := "2".toList) (b := "2".toList) (c := "0".toList) (d := "7".toList) (e := "6".toList) (h := 2) (k := 2)
    (l := 0) (f := 7) (j := 6) (by decide) (by decide) (by decide) (by decide) (by decide)
  simpa [W] using this

/-- It is not true that a row with a comment and the row after it both give a peak. -/
theorem C244_inline_false : ¬ ∀ (env : Env) (ls : List Line) (L : Peaks.Lat) (c : Layout) (nb : ℤ) (coh inc abs : ℝ) (rs : List Refl)
    (s s' w cm : Text) (ws ws' : List Text) (r r' : Refl), LazFile env ls L c nb coh inc abs rs → (Line.row s (w :: ws)).Ok →
    c.Says env (w :: ws) r → (Line.row s' ws').Ok → c.Says env ws' r' → '\n' ∉ cm →
    ∃ z, parseLaz env (fileText ls ++ (s ++ " #".toList ++ cm ++ ['\n'] ++ s' ++ ['\n'])) 0 1 = .ok z ∧
      z.peaks.length = rs.length + 2 := by
  intro h
  have a1 : (rl ["2", "2", "0", "7", "6"]).Ok := rl_ok _ (by decide) (by decide) (by decide)
  have a2 : (rl ["3", "1", "1", "7", "6"]).Ok := rl_ok _ (by decide) (by decide) (by decide)
  have b1 := says0 (a := "2".toList) (b := "2".toList) (c := "0".toList) (d := "7".toList) (e := "6".toList) (h := 2) (k := 2)
    (l := 0) (f := 7) (j := 6) (by decide) (by decide) (by decide) (by decide) (by decide)
  have b2 := says0 (a := "3".toList) (b := "1".toList) (c := "1".toList) (d := "7".toList) (e := "6".toList) (h := 3) (k := 1)
    (l := 1) (f := 7) (j := 6) (by decide) (by decide) (by decide) (by decide) (by decide)
  obtain ⟨z, h1, h2⟩ := h _ _ _ _ _ _ _ _ _ _ _ _ " strong".toList _ _ _ _ laz0 a1 b1 a2 b2 (by decide)
  obtain ⟨z', h3, h4⟩ := C244_lost laz0 0 1 (cm := " strong".toList) a1 b1 a2 (by decide)
  obtain rfl : z = z' := Except.ok.inj (h1.symm.trans h3)
  have := h4.length_eq
  simp only [List.length_map, List.length_append, List.length_cons, List.length_nil] at this h2
  omega

/-- A comment in the last line that does not end with a newline is read as data. -/
theorem C244_end {env : Env} {ls : List Line} {s : Text} {ws : List Text} {L : Peaks.Lat} {c : Layout} {nb : ℤ} {coh inc abs : ℝ}
    {rs : List Refl} (h : LazFile env (ls ++ [.comment s ws]) L c nb coh inc abs rs) (hc : c.h = 1) {e : Err}
    (he : env.int ['#'] = .error e) (width dw : ℝ) :
    parseLaz env (fileText ls ++ '#' :: s) width dw = .error e := unterminated h hc he width dw

/-- It is not true that a readable file stays readable if the newline after a comment at the end is missing. -/
theorem C244_end_false : ¬ ∀ (env : Env) (ls : List Line) (s : Text) (ws : List Text) (L : Peaks.Lat) (c : Layout) (nb : ℤ)
    (coh inc abs : ℝ) (rs : List Refl), LazFile env (ls ++ [.comment s ws]) L c nb coh inc abs rs →
    ∃ z, parseLaz env (fileText ls ++ '#' :: s) 0 1 = .ok z := by
  intro h
  obtain ⟨z, hz⟩ := h _ _ _ _ _ _ _ _ _ _ _ laz1
  have hh := hz.symm.trans (C244_end laz1 rfl (e := .valueError) rfl 0 1)
  cases hh

/-- the file with a comment at the end -/
example : LazFile env0 (lines0 ++ [cl ["end"]]) lat0 layout0 4 1 2 3 [⟨⟨2, 0, 0⟩, 7, 6⟩, ⟨⟨1, 1, 1⟩, 9, 8⟩] ∧ layout0.h = 1 ∧
    env0.int ['#'] = .error .valueError := ⟨laz1, rfl, rfl⟩

/-! ### C245 -/

/-- The cross sections are those of one atom times the number of atoms, in whatever order the comments come. -/
theorem C245_sections {env : Env} {ls : List Line} {L : Peaks.Lat} {c : Layout} {nb : ℤ} {coh inc abs : ℝ} {rs : List Refl}
    (h : LazFile env ls L c nb coh inc abs rs) (width dw : ℝ) :
    ∃ z, parseLaz env (fileText ls) width dw = .ok z ∧ z.xs.lookup "coh".toList = some (coh * nb) ∧
      z.xs.lookup "inc".toList = some (inc * nb) ∧ z.xs.lookup "abs".toList = some (abs * nb) ∧ z.xs.length = 3 := by
  obtain ⟨xs, h1, h2⟩ := parseLaz_file h width dw
  have hn : (xs.map (·.1)).Nodup := by
    refine (h2.map (·.1)).nodup_iff.mpr ?_
    show (["coh".toList, "inc".toList, "abs".toList]).Nodup
    decide
  refine ⟨_, h1, lookup_some hn (h2.mem_iff.mpr (by simp)), lookup_some hn (h2.mem_iff.mpr (by simp)),
    lookup_some hn (h2.mem_iff.mpr (by simp)), h2.length_eq⟩

example : LazFile env0 lines0 lat0 layout0 4 1 2 3 [⟨⟨2, 0, 0⟩, 7, 6⟩, ⟨⟨1, 1, 1⟩, 9, 8⟩] := laz0

/-! ### C246 -/

/-- A lau file is read: the reflections in the order of the rows. -/
theorem C246_lau {env : Env} {ls : List Line} {L : Peaks.Lat} {h k l f : ℕ} {rs : List Hkl} (hf : LauFile env ls L h k l f rs) :
    parseLau env (fileText ls) = .ok (L, rs) := parseLau_file hf

/-- the same file -/
example : LauFile env0 lines0 lat0 1 2 3 4 [⟨⟨2, 0, 0⟩, 7⟩, ⟨⟨1, 1, 1⟩, 9⟩] := by
  refine ⟨laz0.ok, laz0.labelled, laz0.cell, laz0.columns, laz0.layout.h, laz0.layout.k, laz0.layout.l, laz0.layout.f, ?_⟩
  refine .cons ⟨?_, ?_, ?_, ?_⟩ (.cons ⟨?_, ?_, ?_, ?_⟩ .nil)
  · exact ⟨"2".toList, by decide, rfl, float0 (n := 2) (by decide) (by norm_num)⟩
  · exact ⟨"0".toList, by decide, rfl, float0 (n := 0) (by decide) (by norm_num)⟩
  · exact ⟨"0".toList, by decide, rfl, float0 (n := 0) (by decide) (by norm_num)⟩
  · exact ⟨"7".toList, by decide, rfl, float0 (n := 7) (by decide) (by norm_num)⟩
  · exact ⟨"1".toList, by decide, rfl, float0 (n := 1) (by decide) (by norm_num)⟩
  · exact ⟨"1".toList, by decide, rfl, float0 (n := 1) (by decide) (by norm_num)⟩
  · exact ⟨"1".toList, by decide, rfl, float0 (n := 1) (by decide) (by norm_num)⟩
  · exact ⟨"9".toList, by decide, rfl, float0 (n := 9) (by decide) (by norm_num)⟩

/-! ### C247 -/

/-- The cross section per unit cell that Python computes is the one the C++ kernel uses: the scattering coefficient is 100 times the
cross section over the volume. -/
theorem C247_same (d : Powder.Data) (ev : Flight.Ev) (hv : 0 < energy ev.v) (hd : ∀ p ∈ d.peaks, p.dw = 0 ∨ p.dw = 1) :
    ∃ sigma, totalXs (energy ev.v) d.vol d.peaks = some sigma ∧ d.coefficient ev = 100 * sigma / d.vol := by
  have hlen : 0 < Solid.length ev.v := by
    rcases (Real.sqrt_nonneg _).lt_or_eq with h | h
    · exact h
    · exfalso
      have := v2E_length ev.v
      rw [← this, show Solid.length ev.v = 0 from h.symm] at hv
      simp [v2E] at hv
  have he : Sources.e2k (energy ev.v) = some (v2k * Solid.length ev.v) := by
    unfold Sources.e2k
    rw [← v2E_length, E2v_v2E hlen.le]
    rfl
  refine ⟨_, by unfold totalXs; rw [he]; rfl, ?_⟩
  unfold Powder.Data.coefficient Powder.Data.scatteringXs
  generalize Solid.length ev.v = v at hlen
  have key : ∀ ps : List Powder.Peak, (∀ p ∈ ps, p.dw = 0 ∨ p.dw = 1) →
      ps.foldl (fun s p => if v ≥ p.qv / 2 then s + d.sv2 p else s) 0 / (v * v) =
        100 * sumXs (v2k * v) (Real.pi * 2 / (v2k * v)) d.vol ps := by
    intro ps hps
    induction ps with
    | nil => simp [sumXs]
    | cons p ps ih =>
      have ih := ih fun x hx => hps x (List.mem_cons_of_mem _ hx)
      have hs : sumXs (v2k * v) (Real.pi * 2 / (v2k * v)) d.vol (p :: ps) =
          (if p.q > 2 * (v2k * v) then 0 else (Real.pi * 2 / (v2k * v)) ^ 3 / d.vol / 4 / (p.q / 2 / (v2k * v)) * p.F2 * p.mult) +
            sumXs (v2k * v) (Real.pi * 2 / (v2k * v)) d.vol ps := by
        conv_lhs => unfold sumXs
        rw [List.foldl_cons, sumXs_add]
        split_ifs <;> ring
      rw [List.foldl_cons, sv2_add, add_div, ih, hs, mul_add]
      congr 1
      have hk := k2v_pos
      have hi : v2k = 1 / k2v := rfl
      have hcond : v ≥ p.qv / 2 ↔ ¬ p.q > 2 * (v2k * v) := by
        unfold Powder.Peak.qv
        rw [hi, not_lt]
        have : 2 * (1 / k2v * v) = 2 * v / k2v := by ring
        rw [this, le_div_iff₀ hk]
        constructor <;> intro h <;> linarith
      by_cases hc : v ≥ p.qv / 2
      · rw [if_pos hc, if_neg (hcond.mp hc)]
        unfold Powder.Data.sv2
        have hdw : (if p.dw ≠ 0 then p.dw else 1) = 1 := by
          rcases hps p (by simp) with h | h <;> simp [h]
        rw [hdw, hi]
        by_cases hq : p.q = 0
        · simp [hq]
        by_cases hvol : d.vol = 0
        · simp [hvol]
        field_simp
        ring
      · rw [if_neg hc, if_pos (by by_contra h; exact hc (hcond.mpr h))]
        simp
  rw [key _ hd]

/-- Squires: every cone that exists (`q = 2 k sin θ` with `θ` half of the scattering angle) gives `λ³ / (4 V sin θ)` times the
multiplicity and the squared structure factor; here for one peak. -/
theorem C247_cone {Ei vol : ℝ} {p : Powder.Peak} {k lam theta : ℝ} (hE : 0 ≤ Ei) (hk : 0 < k) (he : vsq2e * (k2v * k) ^ 2 = Ei)
    (hl : lam * k = 2 * Real.pi) (hq : p.q = 2 * k * Real.sin theta) (hs : 0 < Real.sin theta) :
    totalXs Ei vol [p] = some (p.mult * p.F2 * lam ^ 3 / (4 * vol * Real.sin theta)) := by
  have hv2 := v2k_mul
  have h1 : Sources.e2k Ei = some k := by
    unfold Sources.e2k
    rw [E2v_of (v := k2v * k) (mul_nonneg k2v_pos.le hk.le) (by rw [← sq]; exact he)]
    show some (v2k * (k2v * k)) = _
    rw [← mul_assoc, hv2, one_mul]
  have h2 : lam = Real.pi * 2 / k := by rw [eq_div_iff hk.ne', hl]; ring
  unfold totalXs
  rw [h1]
  show some (sumXs k (Real.pi * 2 / k) vol [p]) = _
  rw [← h2]
  congr 1
  unfold sumXs
  have hle : ¬ p.q > 2 * k := by
    rw [hq, not_lt]
    have := Real.sin_le_one theta
    nlinarith
  rw [List.foldl_cons, List.foldl_nil, if_neg hle, hq]
  have : 2 * k * Real.sin theta / 2 / k = Real.sin theta := by field_simp
  rw [this, zero_add, div_div, div_div]
  ring

/-- a peak of aluminium and a neutron that sees it -/
example : (0 : ℝ) < 2 ∧ vsq2e * (k2v * 2) ^ 2 = vsq2e * (k2v * 2) ^ 2 ∧ Real.pi * 2 = 2 * Real.pi ∧
    (⟨2, 1, 8, 0, 1⟩ : Powder.Peak).q = 2 * 2 * Real.sin (Real.arcsin (1 / 2)) ∧ 0 < Real.sin (Real.arcsin (1 / 2)) := by
  rw [Real.sin_arcsin (by norm_num) (by norm_num)]
  norm_num
  ring

/-- a neutron and a pattern -/
example : 0 < energy evz.v ∧ ∀ p ∈ (⟨[⟨2, 1, 8, 0, 1⟩], 64, 0⟩ : Powder.Data).peaks, p.dw = 0 ∨ p.dw = 1 := by
  refine ⟨by rw [evz_energy]; exact vsq2e_pos, ?_⟩
  intro p hp
  rw [List.mem_singleton.mp hp]
  right; rfl

/-! ### C248 -/

/-- A density of states file: the numbers in the order of the lines, whatever other lines there are, with the energy in meV for the
unit that the first comment naming one names. -/
theorem C248_partial {env : Env} {ls : List DLine} (h : ∀ l ∈ ls, l.Ok env) {x : Option String} {u : String}
    (hu : UnitIs (dcomments ls) x u) {pts : List (ℝ × ℝ)} (hp : pts ≠ []) (hn : numbers ls = pts.map fun p => [p.1, p.2]) (meV : ℝ) :
    (u = "meV" → dosFromAscii env meV (dosText ls) x = .ok (pts.map (·.1), pts.map (·.2), none)) ∧
      (u = "TeraHz" → dosFromAscii env meV (dosText ls) x = .ok (pts.map fun p => quantum meV p.1, pts.map (·.2), none)) ∧
      (u ≠ "meV" → u ≠ "TeraHz" → dosFromAscii env meV (dosText ls) x = .error .notImplemented) := by
  have ht : transposed (numbers ls) = .ok (pts.map (·.1), pts.map (·.2), none) := by
    rw [hn]
    cases pts with
    | nil => exact absurd rfl hp
    | cons p pts =>
      unfold transposed
      rw [List.map_cons]
      dsimp only
      rw [if_pos ⟨by simp, by simp⟩]
      simp [Function.comp_def]
  have := dos_file h hu ht meV
  refine ⟨fun e => ?_, fun e => ?_, fun e1 e2 => ?_⟩
  · rw [this, if_pos e]
  · rw [this, if_neg (by rw [e]; decide), if_pos e, List.map_map]; rfl
  · rw [this, if_neg e1, if_neg e2]

/-- With a third column the squared errors are the squares of its numbers. -/
theorem C248_errors {env : Env} {ls : List DLine} (h : ∀ l ∈ ls, l.Ok env) {x : Option String} (hu : UnitIs (dcomments ls) x "meV")
    {pts : List (ℝ × ℝ × ℝ)} (hp : pts ≠ []) (hn : numbers ls = pts.map fun p => [p.1, p.2.1, p.2.2]) (meV : ℝ) :
    dosFromAscii env meV (dosText ls) x = .ok (pts.map (·.1), pts.map (·.2.1), some (pts.map fun p => p.2.2 ^ 2)) := by
  have ht : transposed (numbers ls) = .ok (pts.map (·.1), pts.map (·.2.1), some (pts.map fun p => p.2.2 ^ 2)) := by
    rw [hn]
    cases pts with
    | nil => exact absurd rfl hp
    | cons p pts =>
      unfold transposed
      rw [List.map_cons]
      dsimp only
      rw [if_pos ⟨by simp, by simp⟩]
      simp [Function.comp_def]
  rw [dos_file h hu ht meV, if_pos rfl]

/-- the unit named by a comment, and lines that are skipped -/
example : (∀ l ∈ dos0, l.Ok env0) ∧ UnitIs (dcomments dos0) none "TeraHz" ∧ numbers dos0 = [((0 : ℝ), (1 : ℝ)), (2, 5)].map fun p => [p.1, p.2] := by
  refine ⟨dos0_ok, .teraHz ((names_iff _ _ _).mpr (by decide)) (fun h => ?_), rfl⟩
  exact absurd ((names_iff _ _ _).mp h) (by decide)

/-- a file with errors -/
example : ∃ ls : List DLine, (∀ l ∈ ls, l.Ok env0) ∧ UnitIs (dcomments ls) (some "meV") "meV" ∧
    numbers ls = [((1 : ℝ), (2 : ℝ), (3 : ℝ))].map fun p => [p.1, p.2.1, p.2.2] := by
  refine ⟨[.numbers (flat (W ["1", "2", "3"])) (W ["1", "2", "3"]) [1, 2, 3]], ?_, .given, rfl⟩
  intro l hl
  rw [List.mem_singleton.mp hl]
  exact ⟨by decide, spells_flat (by decide), by decide, by decide, .cons (float0 (n := 1) (by decide) (by norm_num))
    (.cons (float0 (n := 2) (by decide) (by norm_num)) (.cons (float0 (n := 3) (by decide) (by norm_num)) .nil))⟩

/-- It is not true that a line with nothing but a hash can be added to a file: the file becomes unreadable. -/
theorem C248_false : ¬ ∀ (env : Env) (ls : List DLine) (x : Option String) (meV : ℝ) (r : List ℝ × List ℝ × Option (List ℝ)),
    (∀ l ∈ ls, l.Ok env) → dosFromAscii env meV (dosText ls) x = .ok r →
    ∃ r', dosFromAscii env meV (dosText (.comment [] [] [] :: ls)) x = .ok r' := by
  intro h
  have h1 := (C248_partial dos0_ok (x := none) (u := "TeraHz") (.teraHz ((names_iff _ _ _).mpr (by decide))
    (fun h => absurd ((names_iff _ _ _).mp h) (by decide))) (pts := [(0, 1), (2, 5)]) (by simp) rfl 1).2.1 rfl
  obtain ⟨r', hr⟩ := h env0 dos0 none 1 _ dos0_ok h1
  have hok : ∀ l ∈ (DLine.comment [] [] [] :: dos0), l.Ok env0 := by
    intro l hl
    rcases List.mem_cons.mp hl with rfl | hl
    · exact ⟨by decide, by simp, .blank (by simp)⟩
    · exact dos0_ok l hl
  obtain ⟨cs, h2, h3⟩ := dosLines hok [] []
  have h4 : ∃ c cs', cs = c :: cs' ∧ words c = [] := by
    cases cs with
    | nil => cases h3
    | cons c cs' => exact ⟨c, cs', rfl, (List.cons.inj h3).1⟩
  obtain ⟨c, cs', rfl, hc⟩ := h4
  unfold dosFromAscii dosText at hr
  rw [splitAll_file DLine.text _ fun l hl => (hok l hl).1, h2] at hr
  simp only [List.nil_append] at hr
  have ht : transposed (numbers (DLine.comment [] [] [] :: dos0)) = .ok ([0, 2], [1, 5], none) := by
    show transposed [[0, 1], [2, 5]] = _
    unfold transposed
    dsimp only
    rw [if_pos ⟨by simp, by simp⟩]
    simp
  have hf : findUnit (c :: cs') none = .error .indexError := by
    unfold findUnit unitOf
    rw [hc]
    rfl
  rw [ht, hf] at hr
  cases hr

/-- It is not true that a comment which names the unit is enough: it must be in the first word, so `# energy (meV)` is not understood. -/
theorem C248_word_false : ¬ ∀ (env : Env) (ls : List DLine) (meV : ℝ) (pts : List (ℝ × ℝ)), (∀ l ∈ ls, l.Ok env) → pts ≠ [] →
    (numbers ls = pts.map fun p => [p.1, p.2]) → (∃ ws ∈ dcomments ls, ∃ w ∈ ws, "meV".toList <:+: w) →
    ∃ r, dosFromAscii env meV (dosText ls) none = .ok r := by
  intro h
  have hok : ∀ l ∈ [DLine.comment [] (flat (W ["energy", "(meV)"])) (W ["energy", "(meV)"]), .numbers (flat (W ["0", "1"])) (W ["0", "1"]) [0, 1]],
      l.Ok env0 := by
    intro l hl
    simp only [List.mem_cons, List.not_mem_nil, or_false] at hl
    rcases hl with rfl | rfl
    · exact ⟨by decide, by simp, spells_flat (by decide)⟩
    · exact ⟨by decide, spells_flat (by decide), by decide, by decide, .cons (float0 (n := 0) (by decide) (by norm_num))
        (.cons (float0 (n := 1) (by decide) (by norm_num)) .nil)⟩
  obtain ⟨r, hr⟩ := h env0 _ 1 [(0, 1)] hok (by simp) rfl
    ⟨W ["energy", "(meV)"], by decide, "(meV)".toList, by decide, (contains_iff _ _).mp (by decide)⟩
  obtain ⟨cs, h2, h3⟩ := dosLines hok [] []
  have h4 : ∃ c, cs = [c] ∧ words c = W ["energy", "(meV)"] := by
    cases cs with
    | nil => cases h3
    | cons c cs' =>
      obtain ⟨e1, e2⟩ := List.cons.inj h3
      cases cs' with
      | nil => exact ⟨c, rfl, e1⟩
      | cons _ _ => cases e2
  obtain ⟨c, rfl, hc⟩ := h4
  unfold dosFromAscii dosText at hr
  rw [splitAll_file DLine.text _ fun l hl => (hok l hl).1, h2] at hr
  simp only [List.nil_append] at hr
  have ht : transposed [[0, 1]] = .ok ([0], [1], none) := by
    unfold transposed
    dsimp only
    rw [if_pos ⟨by simp, by simp⟩]
    simp
  have hf : findUnit [c] none = .ok none := by
    unfold findUnit unitOf
    rw [hc]
    rfl
  have hnum : numbers [DLine.comment [] (flat (W ["energy", "(meV)"])) (W ["energy", "(meV)"]),
      DLine.numbers (flat (W ["0", "1"])) (W ["0", "1"]) [0, 1]] = [[0, 1]] := rfl
  rw [hnum, ht, hf] at hr
  cases hr

end Verif.DataFiles
