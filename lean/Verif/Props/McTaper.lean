import Verif.Lemmas.McTaper
/-!
Property theorems: the guide with curved walls.
-/

namespace Verif.McTaper
open McStas Kinem McGuide Homog McOpt McOptB Flight
open Classical

/-! ### the walls -/

/-- the guide of the first example in the comment of the component, lines 46: 800 segments -/
noncomputable def example1 : Par := ⟨0.1, 0.18, 1.5, 0.1, 0.1, 0.1, 0.1, 0.99, 0.021, 0.021, 6.07, 6.07, 0.003, 1, 1, 800, 0, 0⟩

theorem example1_sane : example1.Sane 800 := by constructor <;> norm_num [example1]

/-- C327: an elliptical guide: the edges of all segments are on the ellipses through the edges of the entrance, the focal points of which are
`lin` before the entrance and `lout` behind the exit -/
theorem C327_ellipse (c : Par) (n : ℕ) (hc : c.Sane n) : ∃ g, c.init .elliptical = .ok g ∧ Follows OnEllipse c n g := by
  choose! kh a1 a2 using fun i (hi : i ≤ n) => ellipse_shape hc.h1 hc.l hc.linh hc.louth hc.pos hi
  choose! kw b1 b2 using fun i (hi : i ≤ n) => ellipse_shape hc.w1 hc.l hc.linw hc.loutw hc.pos hi
  obtain ⟨x, hx, x0, -⟩ := ellExit_shape hc.h1 hc.l hc.linh hc.louth
  obtain ⟨y, hy, y0, -⟩ := ellExit_shape hc.w1 hc.l hc.linw hc.loutw
  refine ⟨_, ?_, follows_of (fun i hi => a2 i hi) fun i hi => b2 i hi⟩
  unfold Par.init
  rw [if_neg (not_le.2 hc.W), if_neg (not_le.2 hc.l)]
  exact walls_ok hc.segno hc.pos kh kw ⟨x, by rw [hx]; rfl, x0⟩ ⟨y, by rw [hy]; rfl, y0⟩ a1 b1

example : ∃ c n, Par.Sane c n ∧ 0 < c.linh ∧ 0 < c.louth ∧ 1 < n := ⟨example1, 800, example1_sane, by norm_num [example1], by norm_num [example1], by norm_num⟩

/-- C327: without focal points the walls are plane, and the guide is that of the word `straight` -/
theorem C327_plane (c : Par) (n : ℕ) (hc : c.Sane n) (h : c.linh = 0 ∧ c.louth = 0 ∧ c.linw = 0 ∧ c.loutw = 0) :
    c.init .elliptical = c.init .straight ∧ c.init .parabolical = c.init .straight ∧ ∃ g, c.init .straight = .ok g ∧ g.segs.length = n ∧
      ∀ s ∈ g.segs, s = ⟨c.h1, c.h1, c.w1, c.w1⟩ := by
  obtain ⟨h1, h2, h3, h4⟩ := h
  have hs : c.init .straight = .ok (c.done ((List.range n).map fun _ => ⟨c.h1, c.h1, c.w1, c.w1⟩) (c.l / n) c.w1 c.h1) := by
    unfold Par.init
    rw [if_neg (not_le.2 hc.W), if_neg (not_le.2 hc.l)]
    exact walls_ok hc.segno hc.pos (fun _ => c.h1) (fun _ => c.w1) ⟨_, rfl, hc.h1⟩ ⟨_, rfl, hc.w1⟩ (fun _ _ => rfl) fun _ _ => rfl
  refine ⟨?_, ?_, _, hs, by simp [Par.done], by simp [Par.done]⟩
  · rw [hs]
    unfold Par.init
    rw [if_neg (not_le.2 hc.W), if_neg (not_le.2 hc.l)]
    refine walls_ok hc.segno hc.pos (fun _ => c.h1) (fun _ => c.w1) ⟨c.h1, ?_, hc.h1⟩ ⟨c.w1, ?_, hc.w1⟩ (fun i _ => ?_) fun i _ => ?_
    · simp [h1, h2, ellExit, num]
    · simp [h3, h4, ellExit, num]
    · simp [h1, h2, ellipse, ellExit]
    · simp [h3, h4, ellipse, ellExit]
  · rw [hs]
    unfold Par.init
    rw [if_neg (not_le.2 hc.W), if_neg (not_le.2 hc.l)]
    refine walls_ok hc.segno hc.pos (fun _ => c.h1) (fun _ => c.w1) ⟨c.h1, ?_, hc.h1⟩ ⟨c.w1, ?_, hc.w1⟩ (fun i _ => ?_) fun i _ => ?_
    · simp [h1, h2, paraExit]
    · simp [h3, h4, paraExit]
    · simp [h1, h2, parabola]
    · simp [h3, h4, parabola]

example : ∃ c n, Par.Sane c n ∧ c.linh = 0 ∧ c.louth = 0 ∧ c.linw = 0 ∧ c.loutw = 0 :=
  ⟨⟨0.1, 0.18, 1.5, 0, 0, 0, 0, 0.99, 0.021, 0.021, 6.07, 6.07, 0.003, 1, 1, 800, 0, 0⟩, 800, by constructor <;> norm_num, rfl, rfl, rfl, rfl⟩

theorem between_chain : ∀ hs ws : List ℝ, (between hs ws).IsChain fun a b => a.h2 = b.h1 ∧ a.w2 = b.w1
  | [], _ => by simp [between]
  | [_], _ => by simp [between]
  | _ :: _ :: _, [] => by simp [between]
  | _ :: _ :: _, [_] => by simp [between]
  | h1 :: h2 :: hs, w1 :: w2 :: ws => by
    have ih := between_chain (h2 :: hs) (w2 :: ws)
    rw [between]
    match hs, ws, ih with
    | [], _, _ => simp [between]
    | _ :: _, [], _ => simp [between]
    | _ :: _, _ :: _, ih =>
      rw [between] at ih ⊢
      exact List.isChain_cons_cons.2 ⟨⟨rfl, rfl⟩, ih⟩

/-- C327: for the words of `option` there are no gaps: each segment begins with the size at the end of the one before -/
theorem C327_joined (c : Par) (o : Opt) (ho : ∀ f, o ≠ .file f) (g : Guide) (h : c.init o = .ok g) :
    g.segs.IsChain fun a b => a.h2 = b.h1 ∧ a.w2 = b.w1 := by
  have key : ∀ ex at', c.walls ex at' = .ok g → g.segs.IsChain fun a b => a.h2 = b.h1 ∧ a.w2 = b.w1 := by
    intro ex at' h
    unfold Par.walls at h
    simp only [bind, Except.bind] at h
    rcases McRotor.ite_or h with ⟨-, h⟩ | ⟨-, h⟩
    · cases h
    split at h
    · cases h
    split at h
    · cases h
    split at h
    · cases h
    split at h
    · cases h
    split at h
    · cases h
    split at h
    · cases h
    cases h
    exact between_chain _ _
  unfold Par.init at h
  rcases McRotor.ite_or h with ⟨-, h⟩ | ⟨-, h⟩
  · cases h
  rcases McRotor.ite_or h with ⟨-, h⟩ | ⟨-, h⟩
  · cases h
  cases o with
  | elliptical => exact key _ _ h
  | parabolical => exact key _ _ h
  | straight => exact key _ _ h
  | missing => cases h
  | other => cases h
  | file f => exact absurd rfl (ho f)

example : ∃ g, example1.init .elliptical = .ok g ∧ g.segs.length = 800 := by
  obtain ⟨g, h, h2, -⟩ := C327_ellipse example1 800 example1_sane
  exact ⟨g, h, h2⟩

/-- C328: a parabolical guide: the edges of all segments are on the parabolas through the edges of the entrance with the focal point `lout`
behind the exit or `lin` before the entrance -/
theorem C328_parabola (c : Par) (n : ℕ) (hc : c.Sane n) (hh : ¬ (0 < c.linh ∧ 0 < c.louth)) (hw : ¬ (0 < c.linw ∧ 0 < c.loutw)) :
    ∃ g, c.init .parabolical = .ok g ∧ Follows OnParabola c n g := by
  choose! kh a1 a2 using fun i (hi : i ≤ n) => parabola_shape hc.h1 hc.l hc.linh hc.louth hc.pos hi
  choose! kw b1 b2 using fun i (hi : i ≤ n) => parabola_shape hc.w1 hc.l hc.linw hc.loutw hc.pos hi
  refine ⟨_, ?_, follows_of (fun i hi => a2 i hi) fun i hi => b2 i hi⟩
  unfold Par.init
  rw [if_neg (not_le.2 hc.W), if_neg (not_le.2 hc.l)]
  exact walls_ok hc.segno hc.pos kh kw (paraExit_pos hc.h1 hc.l hc.linh hc.louth hh) (paraExit_pos hc.w1 hc.l hc.linw hc.loutw hw) a1 b1

/-- a guide with the focal point of the height behind the exit and that of the width before the entrance -/
noncomputable def mixed : Par := ⟨0.1, 0.18, 1.5, 0.1, 0, 0, 0.1, 0.99, 0.021, 0.021, 6.07, 6.07, 0.003, 1, 1, 3, 0, 0⟩

theorem mixed_sane : mixed.Sane 3 := by constructor <;> norm_num [mixed]

example : mixed.Sane 3 ∧ ¬ (0 < mixed.linh ∧ 0 < mixed.louth) ∧ ¬ (0 < mixed.linw ∧ 0 < mixed.loutw) ∧ 0 < mixed.louth ∧ 0 < mixed.linw :=
  ⟨mixed_sane, by norm_num [mixed], by norm_num [mixed], by norm_num [mixed], by norm_num [mixed]⟩

/-- C328: the curve of the specification is a parabola: its points are as far from the focal point as from a straight line behind it -/
theorem C328_directrix (s l lout z y : ℝ) (h : OnParabola s l 0 lout z y) :
    √((l + lout - z) ^ 2 + y ^ 2) = (l + lout + (√((l + lout) ^ 2 + (s / 2) ^ 2) - (l + lout))) - z := by
  unfold OnParabola at h
  rw [if_pos rfl] at h
  linarith

example : OnParabola 6 3 0 1 0 3 := by unfold OnParabola; rw [if_pos rfl]; norm_num

/-- C328: two focal points are refused -/
theorem C328_two (c : Par) (n : ℕ) (hc : c.Sane n) (h : (0 < c.linh ∧ 0 < c.louth) ∨ (0 < c.linw ∧ 0 < c.loutw)) :
    c.init .parabolical = .error .cppException := by
  have hn : ⌊c.segno⌋₊ = n := by rw [hc.segno, Nat.floor_natCast]
  unfold Par.init
  rw [if_neg (not_le.2 hc.W), if_neg (not_le.2 hc.l)]
  simp only
  unfold Par.walls
  simp only [hn, if_neg hc.pos.ne']
  by_cases hh : 0 < c.linh ∧ 0 < c.louth
  · have : paraExit c.h1 c.l c.linh c.louth = .error .cppException := if_pos hh
    rw [this]; rfl
  · have hw := h.resolve_left hh
    obtain ⟨x, hx, x0⟩ := paraExit_pos hc.h1 hc.l hc.linh hc.louth hh
    choose! kh a1 a2 using fun i (hi : i ≤ n) => parabola_shape hc.h1 hc.l hc.linh hc.louth hc.pos hi
    have : paraExit c.w1 c.l c.linw c.loutw = .error .cppException := if_pos hw
    rw [this, hx]
    simp only [bind, Except.bind, positive, if_neg (not_le.2 x0), sizes_ok a1]

example : ∃ c n, Par.Sane c n ∧ 0 < c.linh ∧ 0 < c.louth := ⟨example1, 800, example1_sane, by norm_num [example1], by norm_num [example1]⟩

/-! ### the file -/

theorem rows_some : ∀ ss : List Seg, rows (ss.map some) = .ok ss
  | [] => rfl
  | s :: ss => by
    rw [List.map_cons, rows, rows_some ss]; rfl

/-- C329, partial: the lines of the file behind the first three are the segments, all of the same length.  Missing: files the last line of
which has no end (`C329_end_false`), and more lines than `segno` (`C329_room_false`). -/
theorem C329_partial (c : Par) (hW : 0 < c.W) (hl : 0 < c.l) (f : File) (a b d : Option Seg) (ss : List Seg) (z : Seg)
    (hf : f.lines = a :: b :: d :: (ss ++ [z]).map some) (he : f.ended = true) (h800 : f.lines.length < 800)
    (hn : (ss ++ [z]).length ≤ c.segno) (hh : 0 < z.h2) (hw : 0 < z.w2) :
    ∃ g, c.init (.file f) = .ok g ∧ g.segs = ss ++ [z] ∧ g.lseg = c.l / (ss ++ [z]).length ∧
      (∀ s ∈ (ss ++ [z]).head?, g.w1 = s.w1 ∧ g.h1 = s.h1) := by
  have ht : f.turns = f.lines.length + 1 := by unfold File.turns; rw [if_pos (.inl he)]
  have hs : f.segs c.segno = .ok (ss ++ [z]) := by
    unfold File.segs
    rw [if_neg (by omega), if_neg (by omega), ht, Nat.add_sub_cancel, List.take_length, hf]
    simp only [List.drop_succ_cons, List.drop_zero, rows_some]
    simp only [bind, Except.bind]
    rw [if_neg]
    rintro (h | h)
    · simp at h
    · linarith
  obtain ⟨x, hx⟩ : ∃ x, (ss ++ [z]).head? = some x := by cases ss <;> exact ⟨_, rfl⟩
  refine ⟨c.done (ss ++ [z]) (c.l / (ss ++ [z]).length) x.w1 x.h1, ?_, rfl, rfl, fun s hs => ?_⟩
  · unfold Par.init
    rw [if_neg (not_le.2 hW), if_neg (not_le.2 hl)]
    simp only
    rw [hs]
    simp only [bind, Except.bind]
    rw [hx, List.getLast?_append, List.getLast?_singleton]
    simp only [positive, Option.some_or, if_neg (not_le.2 hh), if_neg (not_le.2 hw)]
  · rw [hx] at hs
    cases hs
    exact ⟨rfl, rfl⟩

/-- a segment of a file -/
noncomputable def row : Seg := ⟨0.12, 0.12, 0.02, 0.02⟩

/-- the guide of the second example in the comment of the component, lines 48, with `segno` segments and the radius `R` -/
noncomputable def example2 (segno R : ℝ) : Par := ⟨0, 0, 1.5, 0, 0, 0, 0, 0.99, 0.021, 0.021, 6.07, 6.07, 0.003, 1, 1, segno, R, 0⟩

example : ∃ c f a b d ss z, 0 < Par.W c ∧ 0 < c.l ∧ File.lines f = a :: b :: d :: (ss ++ [z]).map some ∧ f.ended = true ∧ f.lines.length < 800 ∧
    (ss ++ [z]).length ≤ c.segno ∧ 0 < z.h2 ∧ 0 < z.w2 :=
  ⟨example2 800 0, ⟨[none, none, none, some row, some row], true⟩, none, none, none, [row], row, by norm_num [example2], by norm_num [example2],
    rfl, rfl, by norm_num, by norm_num [example2], by norm_num [row], by norm_num [row]⟩

/-- a file with three lines of comments and two segments, the last line without an end -/
noncomputable def unended : File := ⟨[none, none, none, some row, some row], false⟩

theorem unended_segs : unended.segs 800 = .ok [row] := by
  have ht : unended.turns = 5 := by
    unfold File.turns unended; rw [if_neg (by simp)]; rfl
  unfold File.segs
  rw [ht]
  unfold unended
  norm_num [rows, bind, Except.bind]

/-- C329 is false: the last segment of a file is lost if the last line has no end -/
theorem C329_end_false : ¬ ∀ (c : Par) (f : File) (a b d : Option Seg) (ss : List Seg) (g : Guide),
    f.lines = a :: b :: d :: ss.map some → c.init (.file f) = .ok g → g.segs = ss := by
  intro h
  have hi : (example2 800 0).init (.file unended) = .ok ((example2 800 0).done [row] ((example2 800 0).l / (1 : ℕ)) row.w1 row.h1) := by
    unfold Par.init
    rw [if_neg (by norm_num [example2]), if_neg (by norm_num [example2])]
    have : (example2 800 0).segno = 800 := rfl
    simp only [this, unended_segs, bind, Except.bind]
    simp only [List.head?_cons, List.getLast?_singleton, positive]
    rw [if_neg (by norm_num [row]), if_neg (by norm_num [row])]
    rfl
  have := h _ unended none none none [row, row] _ rfl hi
  simp [Par.done] at this

/-- C329 is false: more segments in the file than `segno` are written beyond the arrays -/
theorem C329_room_false : ¬ ∀ (c : Par) (f : File) (a b d : Option Seg) (ss : List Seg), 0 < c.W → 0 < c.l → 0 < c.segno → ss ≠ [] →
    f.lines = a :: b :: d :: ss.map some → f.ended = true → f.lines.length < 800 → (∀ s ∈ ss, 0 < s.h2 ∧ 0 < s.w2) →
    c.init (.file f) ≠ .error .undefinedBehaviour := by
  intro h
  refine h (example2 1 0) ⟨[none, none, none, some row, some row], true⟩ none none none [row, row] (by norm_num [example2])
    (by norm_num [example2]) (by norm_num [example2]) (by simp) rfl rfl (by norm_num) (by norm_num [row]) ?_
  unfold Par.init
  rw [if_neg (by norm_num [example2]), if_neg (by norm_num [example2])]
  have : (example2 1 0).segno = 1 := rfl
  simp only [this]
  have : File.segs ⟨[none, none, none, some row, some row], true⟩ 1 = .error .undefinedBehaviour := by
    unfold File.segs File.turns
    norm_num [rows, bind, Except.bind]
  rw [this]; rfl

/-- C329: for the words of `option` the whole guide is bent by its length over the radius -/
theorem C329_bend (c : Par) (n : ℕ) (hc : c.Sane n) (o : Opt) (ho : o = .elliptical ∨ o = .parabolical ∨ o = .straight) (g : Guide)
    (h : c.init o = .ok g) : (c.curvature ≠ 0 → n * g.rotation_h = c.l / c.curvature) ∧ (c.curvature_v ≠ 0 → n * g.rotation_v = c.l / c.curvature_v) ∧
      (c.curvature = 0 → g.rotation_h = 0) ∧ (c.curvature_v = 0 → g.rotation_v = 0) := by
  have hn : (n : ℝ) ≠ 0 := by exact_mod_cast hc.pos.ne'
  have key : ∀ ex at', c.walls ex at' = .ok g → ∃ ss l w h, g = c.done ss l w h := by
    intro ex at' h
    unfold Par.walls at h
    simp only [bind, Except.bind] at h
    rcases McRotor.ite_or h with ⟨-, h⟩ | ⟨-, h⟩
    · cases h
    split at h
    · cases h
    split at h
    · cases h
    split at h
    · cases h
    split at h
    · cases h
    split at h
    · cases h
    split at h
    · cases h
    cases h
    exact ⟨_, _, _, _, rfl⟩
  have hd : ∃ ss l w h, g = c.done ss l w h := by
    unfold Par.init at h
    rw [if_neg (not_le.2 hc.W), if_neg (not_le.2 hc.l)] at h
    rcases ho with rfl | rfl | rfl <;> exact key _ _ h
  obtain ⟨ss, l, w, h', rfl⟩ := hd
  have hs : c.segno ≠ 0 := by rw [hc.segno]; exact hn
  refine ⟨fun h0 => ?_, fun h0 => ?_, fun h0 => ?_, fun h0 => ?_⟩
  · simp only [Par.done]
    rw [if_pos ⟨h0, hc.l.ne', hs⟩, hc.segno]; field_simp
  · simp only [Par.done]
    rw [if_pos ⟨h0, hc.l.ne', hs⟩, hc.segno]; field_simp
  · simp [Par.done, h0]
  · simp [Par.done, h0]

example : ∃ c n g, Par.Sane c n ∧ c.init .straight = .ok g ∧ c.curvature ≠ 0 := by
  refine ⟨⟨0.1, 0.18, 1.5, 0, 0, 0, 0, 0.99, 0.021, 0.021, 6.07, 6.07, 0.003, 1, 1, 3, 100, 0⟩, 3, ?_⟩
  have hs : (⟨0.1, 0.18, 1.5, 0, 0, 0, 0, 0.99, 0.021, 0.021, 6.07, 6.07, 0.003, 1, 1, 3, 100, 0⟩ : Par).Sane 3 := by constructor <;> norm_num
  obtain ⟨-, -, g, h, -⟩ := C327_plane _ 3 hs ⟨rfl, rfl, rfl, rfl⟩
  exact ⟨g, hs, h, by norm_num⟩

/-- C329 is false: a guide from a file is bent by its length over the radius only if `segno` is the number of lines: with the default of 800 a
file of two segments gives 1/400 of the angle -/
theorem C329_bend_false : ¬ ∀ (c : Par) (f : File) (g : Guide), c.init (.file f) = .ok g → c.curvature ≠ 0 →
    g.segs.length * g.rotation_h = c.l / c.curvature := by
  intro h
  obtain ⟨g, hg, hs, -⟩ := C329_partial (example2 800 100) (by norm_num [example2]) (by norm_num [example2])
    ⟨[none, none, none, some row, some row], true⟩ none none none [row] row rfl rfl (by norm_num) (by norm_num [example2]) (by norm_num [row])
    (by norm_num [row])
  have h1 := h _ _ g hg (by norm_num [example2])
  have hr : g.rotation_h = 1.5 / 100 / 800 := by
    unfold Par.init at hg
    rw [if_neg (by norm_num [example2]), if_neg (by norm_num [example2])] at hg
    simp only [bind, Except.bind] at hg
    split at hg
    · cases hg
    split at hg
    · split at hg
      · cases hg
      split at hg
      · cases hg
      cases hg
      norm_num [Par.done, example2]
    · cases hg
  rw [hs, hr] at h1
  norm_num [example2] at h1

/-! ### TRACE -/

/-- C330, partial: a guide that is not curved: a neutron from the plane of the entrance flies through the segments one after the other by straight
flights and reflections, or is stopped at an entrance or where a mirror does not reflect, or turns back.  Missing: curved guides
(`C330_curve_false`), gravity, and what becomes of neutrons that turn back. -/
theorem C330_partial (g : Guide) (G : Gravity) (hG : G.on = false) (hl : 0 < g.lseg) (hW : 0 < g.W) (hR : 0 < g.R0) (hx : 0 < g.Qcx) (hy : 0 < g.Qcy)
    (r1 : g.rotation_h = 0) (r2 : g.rotation_v = 0) (fuel : Nat) (e r : Event ℝ) (hv : e.v.z ≠ 0) (h : g.trace G fuel e = some r) :
    g.Passes g.segs 0 (flown Off e (-e.r.z / e.v.z)) r ∨ g.Halts g.segs 0 (flown Off e (-e.r.z / e.v.z)) r ∨
      g.Astray g.segs 0 (flown Off e (-e.r.z / e.v.z)) := by
  unfold Guide.trace at h
  have hp : propZ0 G e = flown Off e (-e.r.z / e.v.z) := by
    unfold propZ0 propZ0Free
    simp only [hG, Bool.false_eq_true, if_false, if_neg hv]
    apply Event.ext
    · rw [off_r]; ext <;> simp [propDtFree, mul_comm]
    · rw [off_v]; rfl
    all_goals rfl
  rw [hp] at h
  rcases hs : g.segments G fuel g.segs 0 (flown Off e (-e.r.z / e.v.z)) with _ | ⟨x, b⟩
  · rw [hs] at h; cases h
  rw [hs] at h
  cases h
  rcases segments_sound hG hl hW hR hx hy r1 r2 fuel _ _ _ _ _ hs with ⟨-, h⟩ | ⟨-, h⟩ | h
  · exact .inl h
  · exact .inr (.inl h)
  · exact .inr (.inr h)

/-- C330: without gravity every guide, curved or not, keeps the speed and does not raise the weight -/
theorem C330_speed (g : Guide) (G : Gravity) (hG : G.on = false) (hl : 0 < g.lseg) (hW : 0 < g.W) (hR : g.R0 ≤ 1) (hx : 0 ≤ g.alphax)
    (hy : 0 ≤ g.alphay) (fuel : Nat) (e r : Event ℝ) (he : 0 ≤ e.p) (h : g.trace G fuel e = some r) :
    r.v.dot r.v = e.v.dot e.v ∧ r.p ≤ e.p := by
  unfold Guide.trace at h
  have hp : Keeps e.p e (propZ0 G e) := by
    unfold propZ0 propZ0Free
    simp only [hG, Bool.false_eq_true, if_false]
    split
    · exact keeps_absorb he e
    · exact ⟨rfl, id⟩
  rcases hs : g.segments G fuel g.segs 0 (propZ0 G e) with _ | ⟨x, b⟩
  · rw [hs] at h; cases h
  rw [hs] at h
  cases h
  have := hp.trans (keeps_segments hG hl hW hR hx hy he fuel _ _ _ _ _ hs)
  exact ⟨this.1, this.2 le_rfl⟩

/-- a straight guide of two segments of the width 2 and the length 1, each turned by `θ` -/
noncomputable def bentPar (θ : ℝ) : Par := ⟨2, 2, 2, 0, 0, 0, 0, 0.99, 0.021, 0.021, 6.07, 6.07, 0.003, 1, 1, 2, 1 / θ, 0⟩

/-- what `INITIALIZE` makes of it -/
noncomputable def bentGuide (θ : ℝ) : Guide := ⟨[⟨2, 2, 2, 2⟩, ⟨2, 2, 2, 2⟩], 1, θ, 0, 2, 2, 0.99, 0.021, 0.021, 6.07, 6.07, 0.003, 1, 1⟩

theorem bent_init {θ : ℝ} (h : θ ≠ 0) : (bentPar θ).init .straight = .ok (bentGuide θ) := by
  unfold Par.init
  rw [if_neg (by norm_num [bentPar]), if_neg (by norm_num [bentPar])]
  have := walls_ok (c := bentPar θ) (n := 2) (ex := fun s _ _ _ => .ok s) (at' := fun s _ _ _ _ _ => some s) (by norm_num [bentPar]) (by norm_num)
    (fun _ => 2) (fun _ => 2) ⟨2, rfl, by norm_num⟩ ⟨2, rfl, by norm_num⟩ (fun _ _ => rfl) fun _ _ => rfl
  simp only
  rw [this]
  simp [Par.done, bentPar, bentGuide, List.range_succ, h]

/-- a neutron parallel to the axis -/
noncomputable def parallel (x z : ℝ) : Event ℝ := ⟨⟨x, 0, z⟩, ⟨0, 0, 1⟩, 0, 0, z, 1⟩

theorem bent_next (θ x z : ℝ) : ((bentGuide θ).tube ⟨2, 2, 2, 2⟩).next (parallel x z) = none := by
  unfold McGuide.Guide.next McGuide.Guide.walls nearer Guide.tube parallel
  simp [V3.dot]

theorem bent_loop (θ x z zr : ℝ) (fuel : Nat) : (bentGuide θ).loop Off ⟨2, 2, 2, 2⟩ zr (fuel + 1) (parallel x z) = some (false, parallel x z) := by
  rw [Guide.loop]
  have := bent_next θ x (z - zr)
  have h : ∀ g : McGuide.Guide, g.next { parallel x z with r := ⟨(parallel x z).r.x, (parallel x z).r.y, (parallel x z).r.z - zr⟩ } =
      g.next (parallel x (z - zr)) := fun _ => rfl
  rw [h, this]

theorem rotate_y (θ : ℝ) : rotate ⟨0, 0, 1⟩ (-θ) ⟨0, 1, 0⟩ = ⟨-Real.sin θ, 0, Real.cos θ⟩ := by
  unfold rotate McStas.norm
  simp [V3.cross]

/-- the hypotheses of `C330_partial` and `C330_speed`: a neutron that flies through two segments -/
example : (bentGuide 0).rotation_h = 0 ∧ (bentGuide 0).rotation_v = 0 ∧ 0 < (bentGuide 0).lseg ∧ 0 < (bentGuide 0).W ∧ 0 < (bentGuide 0).R0 ∧
    (bentGuide 0).R0 ≤ 1 ∧ 0 < (bentGuide 0).Qcx ∧ 0 < (bentGuide 0).Qcy ∧ 0 ≤ (bentGuide 0).alphax ∧ 0 ≤ (bentGuide 0).alphay ∧
    (parallel 0 0).v.z ≠ 0 ∧ 0 ≤ (parallel 0 0).p ∧ (bentGuide 0).trace Off 1 (parallel 0 0) = some (parallel 0 1) := by
  refine ⟨rfl, rfl, by norm_num [bentGuide], by norm_num [bentGuide], by norm_num [bentGuide], by norm_num [bentGuide], by norm_num [bentGuide],
    by norm_num [bentGuide], by norm_num [bentGuide], by norm_num [bentGuide], by norm_num [parallel], by norm_num [parallel], ?_⟩
  have hz : propZ0 Off (parallel 0 0) = parallel 0 0 := by unfold propZ0 propZ0Free Off propDtFree parallel; simp
  have hp : propDt Off 0 (parallel 0 0) = parallel 0 0 := by unfold propDt Off propDtFree parallel; norm_num
  have hp1 : propDt Off 1 (parallel 0 0) = parallel 0 1 := by unfold propDt Off propDtFree parallel; norm_num
  have hin : ∀ z, ¬ Seg.outside ⟨2, 2, 2, 2⟩ (parallel 0 z) := by
    intro z; unfold Seg.outside parallel; norm_num
  have htu : ∀ e, (bentGuide 0).turn e = e := turn_none rfl rfl
  have hv : ∀ z, (parallel 0 z).v.z = 1 := fun _ => rfl
  have hrz : (parallel 0 0).r.z = 0 := rfl
  have hls : (bentGuide 0).lseg = 1 := rfl
  have hsg : (bentGuide 0).segs = [⟨2, 2, 2, 2⟩, ⟨2, 2, 2, 2⟩] := rfl
  unfold Guide.trace
  rw [hz, hsg, Guide.segments, hls, hv, hrz]
  simp only [Nat.cast_zero, zero_mul, sub_zero, divD, one_ne_zero, if_false, div_one, Option.bind_eq_bind, Option.bind_some]
  rw [hp, if_neg (hin 0), bent_loop]
  simp only
  rw [htu, Guide.segments, hls, hv, hrz]
  simp only [Nat.cast_one, zero_add, mul_one, sub_zero, divD, one_ne_zero, if_false, div_one, Option.bind_eq_bind, Option.bind_some]
  rw [hp1, if_neg (hin 1), bent_loop]
  simp only
  rw [htu, Guide.segments]
  rfl

/-- C330 is false: in a curved guide, however little it is curved, a neutron that flies parallel to the axis of the first segment without touching a
wall, and comes to the opening of the second one, is stopped at a place where it never was: it is turned where it entered the segment, not
at the end -/
theorem C330_curve_false (θ : ℝ) (h0 : 0 < θ) (h1 : θ < Real.pi / 4) : ∃ (c : Par) (g : Guide) (e : Event ℝ) (s : Seg), c.init .straight = .ok g ∧
    g.rotation_h = θ ∧ g.rotation_v = 0 ∧ g.segs = [s, s] ∧ e.r.z = 0 ∧ e.v = ⟨0, 0, 1⟩ ∧ e.p = 1 ∧
    (∀ τ, s.Opening (flown Off e τ).r) ∧ ∀ fuel, ∃ r, g.trace Off (fuel + 1) e = some r ∧ r.p = -1 ∧ ¬ s.Opening r.r := by
  have hc : 0 < Real.cos θ := Real.cos_pos_of_mem_Ioo ⟨by linarith [Real.pi_pos], by linarith [Real.pi_pos]⟩
  have ht0 : 0 < Real.tan θ := Real.tan_pos_of_pos_of_lt_pi_div_two h0 (by linarith [Real.pi_pos])
  have ht1 : Real.tan θ < 1 := by
    rw [← Real.tan_pi_div_four]
    exact Real.tan_lt_tan_of_nonneg_of_lt_pi_div_two h0.le (by linarith [Real.pi_pos]) h1
  refine ⟨bentPar θ, bentGuide θ, parallel (-1 + Real.tan θ / 2) 0, ⟨2, 2, 2, 2⟩, bent_init h0.ne', rfl, rfl, rfl, rfl, rfl, rfl, fun τ => ?_, fun fuel => ?_⟩
  · rw [off_r]
    unfold Seg.Opening parallel
    simp only [V3.add_x, V3.add_y, V3.smul_x, V3.smul_y, mul_zero, add_zero, abs_zero]
    rw [abs_lt]
    refine ⟨⟨by linarith, by linarith⟩, by norm_num⟩
  · have hz : propZ0 Off (parallel (-1 + Real.tan θ / 2) 0) = parallel (-1 + Real.tan θ / 2) 0 := by
      unfold propZ0 propZ0Free Off propDtFree parallel; simp
    have hp : propDt Off 0 (parallel (-1 + Real.tan θ / 2) 0) = parallel (-1 + Real.tan θ / 2) 0 := by
      unfold propDt Off propDtFree parallel; norm_num
    have hin : ¬ Seg.outside ⟨2, 2, 2, 2⟩ (parallel (-1 + Real.tan θ / 2) 0) := by
      unfold Seg.outside parallel
      simp only
      norm_num
      constructor <;> linarith
    have htu : (bentGuide θ).turn (parallel (-1 + Real.tan θ / 2) 0) =
        ⟨⟨-1 + Real.tan θ / 2, 0, 0⟩, ⟨-Real.sin θ, 0, Real.cos θ⟩, 0, 0, 0, 1⟩ := by
      unfold Guide.turn
      simp only [bentGuide, ne_eq, h0.ne', not_false_eq_true, if_true, not_true_eq_false, if_false, parallel, rotate_y]
    have hfl : propDt Off (1 / Real.cos θ) ⟨⟨-1 + Real.tan θ / 2, 0, 0⟩, ⟨-Real.sin θ, 0, Real.cos θ⟩, 0, 0, 0, 1⟩ =
        ⟨⟨-1 - Real.tan θ / 2, 0, 1⟩, ⟨-Real.sin θ, 0, Real.cos θ⟩, 0, 0, 1 / Real.cos θ, 1⟩ := by
      have : ¬ 1 / Real.cos θ < -1e-15 := by
        have : 0 < 1 / Real.cos θ := by positivity
        linarith
      unfold propDt
      rw [if_neg this]
      unfold Off propDtFree
      simp only [Bool.false_eq_true, if_false]
      apply Event.ext
      · ext
        · simp only [Real.tan_eq_sin_div_cos]; field_simp; ring
        · simp
        · simp only; field_simp; ring
      all_goals simp
    have hout : Seg.outside ⟨2, 2, 2, 2⟩ ⟨⟨-1 - Real.tan θ / 2, 0, 1⟩, ⟨-Real.sin θ, 0, Real.cos θ⟩, 0, 0, 1 / Real.cos θ, 1⟩ := by
      left; simp only; linarith
    have hv : (parallel (-1 + Real.tan θ / 2) 0).v.z = 1 := rfl
    have hrz : (parallel (-1 + Real.tan θ / 2) 0).r.z = 0 := rfl
    have hls : (bentGuide θ).lseg = 1 := rfl
    have hsg : (bentGuide θ).segs = [⟨2, 2, 2, 2⟩, ⟨2, 2, 2, 2⟩] := rfl
    refine ⟨absorb ⟨⟨-1 - Real.tan θ / 2, 0, 1⟩, ⟨-Real.sin θ, 0, Real.cos θ⟩, 0, 0, 1 / Real.cos θ, 1⟩, ?_, rfl, (outside_iff _ _).1 hout⟩
    unfold Guide.trace
    rw [hz, hsg, Guide.segments, hls, hv, hrz]
    simp only [Nat.cast_zero, zero_mul, sub_zero, divD, one_ne_zero, if_false, div_one, Option.bind_eq_bind, Option.bind_some]
    rw [hp, if_neg hin, bent_loop]
    simp only
    rw [htu, Guide.segments, hls]
    simp only [Nat.cast_one, zero_add, mul_one, sub_zero, divD, if_neg hc.ne', Option.bind_eq_bind, Option.bind_some]
    rw [hfl, if_pos hout]
    rfl

example : ∃ θ : ℝ, 0 < θ ∧ θ < Real.pi / 4 := ⟨Real.pi / 8, by positivity, by linarith [Real.pi_pos]⟩

end Verif.McTaper
