import Verif.Lemmas.Detector
import Mathlib.Data.Rat.Floor
import Mathlib.Tactic.NormNum
import Mathlib.Tactic.FieldSimp
import Mathlib.Tactic.LinearCombination
/-!
Property theorems about event mode detectors: C24, C25, C73, C74.
-/

namespace Verif.Detector

/-- **C24** An event with all indexes in range is written with the row-major number of the pixel, which is below the
number of pixels, and the time channel; the records before are untouched. -/
theorem C24_recorded {F : Type} (dims cs : List Nat) (t : Nat) (n : F) (file : List (Rec F)) (h0 : dims ≠ [])
    (hr : InRange cs dims) (h32 : dims.prod ≤ 2 ^ 32) :
    accept dims file (cs.map (fun n : Nat => (n : Int)) ++ [(t : Int)]) n = .ok (file ++ [⟨rowMajor cs dims, t, n⟩]) ∧
      rowMajor cs dims < dims.prod := by
  refine ⟨?_, rowMajor_lt hr⟩
  have hlen : cs.length = dims.length := hr.length_eq
  have hd : dims.length ≠ 0 := by simpa using h0
  rw [accept, if_neg (by simp [hlen]), if_neg hd, checkLoop_ok hr]
  have : checkLoop [(t : Int)] [] = .ok true := by simp [checkLoop]
  simp only [this]
  rw [pixelLoop_eq [(t : Int)] hr 0 (by simpa using h32)]
  simp

/-- **C24** Different index tuples have different pixel numbers. -/
theorem C24_injective (dims cs cs' : List Nat) (h : InRange cs dims) (h' : InRange cs' dims)
    (he : rowMajor cs dims = rowMajor cs' dims) : cs = cs' := rowMajor_inj h h' he

/-- **C24** The first index that is not in range decides: a negative one makes the event ignored, one that is too
large is refused with an exception; in both cases nothing is written. -/
theorem C24_bad_index {F : Type} (dims more cs : List Nat) (c : Int) (d : Nat) (rest : List Int) (n : F) (file : List (Rec F))
    (hr : InRange cs dims) (hlen : rest.length = more.length + 1) :
    (c < 0 → accept (dims ++ d :: more) file (cs.map (fun n : Nat => (n : Int)) ++ c :: rest) n = .ok file) ∧
    ((d : Int) ≤ c → accept (dims ++ d :: more) file (cs.map (fun n : Nat => (n : Int)) ++ c :: rest) n = .error .cppException) := by
  have hl : cs.length = dims.length := hr.length_eq
  constructor
  · intro hc
    rw [accept, if_neg (by simp [hl, hlen]; omega), if_neg (by simp), checkLoop_negative hr c hc]
  · intro hc
    rw [accept, if_neg (by simp [hl, hlen]; omega), if_neg (by simp), checkLoop_large hr c d hc]

/-- **C24** A negative time channel makes the event ignored. -/
theorem C24_bad_time {F : Type} (dims cs : List Nat) (t : Int) (n : F) (file : List (Rec F)) (h0 : dims ≠ [])
    (hr : InRange cs dims) (ht : t < 0) : accept dims file (cs.map (fun n : Nat => (n : Int)) ++ [t]) n = .ok file := by
  have hl : cs.length = dims.length := hr.length_eq
  have hd : dims.length ≠ 0 := by simpa using h0
  have := checkLoop_negative hr t ht [] []
  rw [List.append_nil] at this
  rw [accept, if_neg (by simp [hl]), if_neg hd, this]

/-- 30 packs of 8 tubes of 128 pixels -/
example : InRange [29, 3, 127] [30, 8, 128] ∧ ([30, 8, 128] : List Nat).prod ≤ 2 ^ 32 ∧ rowMajor [29, 3, 127] [30, 8, 128] = 30207 :=
  ⟨.cons (by decide) (.cons (by decide) (.cons (by decide) .nil)), by decide, by decide⟩
example : accept [30, 8, 128] [] [29, 3, 127, 2122] (1 / 2 : ℚ) = .ok [⟨30207, 2122, 1 / 2⟩] := by decide +kernel

/-- **C24** The dimensions computed from a detector system fit: a tube found in the system at some path
of indexes (also through copies), with its own number of pixels, has all its indexes in range,
so that every neutron absorbed in the tube is either written with a pixel number of its own or ignored, never refused. -/
theorem C24_hierarchy {F : Type} [Field F] [LinearOrder F] [FloorRing F] (system : Elem) (dims : List (String × Nat))
    (hd : hierarchyDims system = .ok dims) (hcopy : CopiesInside system) (path : List Nat) (pixels : List Elem)
    (hl : Located system path pixels) (hne : pixels ≠ []) (hdepth : dims.length = path.length + 1)
    (h32 : (dims.map Prod.snd).prod ≤ 2 ^ 32)
    (z : Z2Channel F) (hz : z.npixels = pixels.length) (tof : Tof2Channel F) (file : List (Rec F)) (ev : Event F) :
    (0 ≤ z.call ev.r → 0 ≤ tof.call ev.t → InRange (path ++ [(z.call ev.r).toNat]) (dims.map Prod.snd) ∧
      tubeAbsorb (path.map (fun n : Nat => (n : Int))) z tof (dims.map Prod.snd) file ev =
      .ok (file ++ [⟨rowMajor (path ++ [(z.call ev.r).toNat]) (dims.map Prod.snd), (tof.call ev.t).toNat, ev.p⟩])) ∧
    (z.call ev.r < 0 ∨ tof.call ev.t < 0 →
      tubeAbsorb (path.map (fun n : Nat => (n : Int))) z tof (dims.map Prod.snd) file ev = .ok file) := by
  obtain ⟨hb, x, hx, hxle⟩ := located_bound hd hcopy hl 0 (.self system) hne
  simp only [Nat.zero_add] at hb hx
  -- split the dimensions into those of the path and the number of pixels
  have hsplit : dims.map Prod.snd = (dims.take path.length).map Prod.snd ++ [x.2] := by
    have : dims = dims.take path.length ++ [x] := by
      apply List.ext_getElem?
      intro i
      by_cases hi : i < path.length
      · rw [List.getElem?_append_left (by simp; omega), List.getElem?_take, if_pos hi]
      · rw [List.getElem?_append_right (by simp; omega)]
        simp only [List.length_take, hdepth, Nat.min_eq_left (Nat.le_succ _)]
        by_cases hi2 : i = path.length
        · subst hi2; simp [hx]
        · rw [List.getElem?_eq_none (by omega), List.getElem?_eq_none (by simp; omega)]
    calc dims.map Prod.snd = (dims.take path.length ++ [x]).map Prod.snd := by rw [← this]
      _ = _ := by simp
  have hpath : InRange path ((dims.take path.length).map Prod.snd) := by
    rw [InRange, List.forall₂_iff_get]
    refine ⟨by simp; omega, ?_⟩
    intro i h1 h2
    obtain ⟨y, hy, hlt⟩ := hb i path[i] (List.getElem?_eq_getElem h1)
    simp only [List.get_eq_getElem, List.getElem_map, List.getElem_take]
    rw [List.getElem?_eq_some_iff] at hy
    obtain ⟨hy1, hy2⟩ := hy
    rw [hy2]; exact hlt
  have hzlt : z.call ev.r < x.2 := by
    have : z.call ev.r < max 1 (z.npixels : Int) := by
      simp only [Z2Channel.call]; split <;> omega
    have : 0 < pixels.length := List.length_pos_iff.2 hne
    omega
  have hz' : -1 ≤ z.call ev.r := by simp only [Z2Channel.call]; split <;> omega
  constructor
  · intro h0 ht
    have hr : InRange (path ++ [(z.call ev.r).toNat]) (dims.map Prod.snd) := by
      rw [hsplit]
      exact List.rel_append hpath (.cons (by omega) .nil)
    refine ⟨hr, ?_⟩
    have := (C24_recorded (dims.map Prod.snd) (path ++ [(z.call ev.r).toNat]) (tof.call ev.t).toNat ev.p file
      (by rw [hsplit]; simp) hr h32).1
    rw [List.map_append, List.append_assoc] at this
    simp only [List.map_cons, List.map_nil, List.cons_append, List.nil_append, Int.toNat_of_nonneg h0, Int.toNat_of_nonneg ht] at this
    exact this
  · intro hneg
    by_cases h0 : z.call ev.r < 0
    · have := (C24_bad_index ((dims.take path.length).map Prod.snd) [] path (z.call ev.r) x.2 [tof.call ev.t] ev.p file hpath
        rfl).1 h0
      rw [tubeAbsorb, hsplit]; exact this
    · have ht : tof.call ev.t < 0 := by omega
      have h0 : 0 ≤ z.call ev.r := by omega
      have hr : InRange (path ++ [(z.call ev.r).toNat]) (dims.map Prod.snd) := by
        rw [hsplit]
        exact List.rel_append hpath (.cons (by omega) .nil)
      have := C24_bad_time (dims.map Prod.snd) (path ++ [(z.call ev.r).toNat]) (tof.call ev.t) ev.p file
        (by rw [hsplit]; simp) hr ht
      rw [List.map_append, List.append_assoc] at this
      simp only [List.map_cons, List.map_nil, List.cons_append, List.nil_append, Int.toNat_of_nonneg h0] at this
      exact this

/-- two packs, the second with more tubes, one of them a copy -/
def exampleSystem : Elem :=
  .container "DetectorSystem" [
    .container "DetectorPack" [.container "He3Tube" [.leaf "Pixel", .leaf "Pixel"]],
    .container "DetectorPack" [.container "He3Tube" [.leaf "Pixel", .leaf "Pixel", .leaf "Pixel"],
      .copy "Copy" (.container "He3Tube" [.leaf "Pixel", .leaf "Pixel", .leaf "Pixel"])]]

example : hierarchyDims exampleSystem = .ok [("DetectorPack", 2), ("He3Tube", 2), ("Pixel", 3)] := by decide +kernel
example : Located exampleSystem [1, 1] [.leaf "Pixel", .leaf "Pixel", .leaf "Pixel"] :=
  .step rfl (.step rfl (.copy (.here _ _)))
example : CopiesInside exampleSystem := by
  intro l t r h
  cases h with
  | inside hm h =>
    simp at hm
    rcases hm with rfl | rfl
    · cases h with
      | inside hm h =>
        simp at hm; subst hm
        cases h with
        | inside hm h => simp at hm; subst hm; cases h
    · cases h with
      | inside hm h =>
        simp at hm
        rcases hm with rfl | rfl
        · cases h with
          | inside hm h => simp at hm; subst hm; cases h
        · cases h with
          | self =>
            refine .inside (List.mem_cons_of_mem _ (List.mem_cons_self ..)) (.inside (List.mem_cons_self ..) (.self _))

/-- **C73** (negation) A detector system in which the first pack is empty cannot be numbered: IndexError. -/
theorem C73_empty_pack_false : ∃ t p q tubes, hierarchyDims (.container t [.container p [], .container q tubes]) = .error .indexError ∧
    hierarchyDims (.container t [.container q tubes, .container p []]) = .ok [("DetectorPack", 2), ("He3Tube", 1), ("Pixel", 2)] :=
  ⟨"DetectorSystem", "DetectorPack", "DetectorPack", [.container "He3Tube" [.leaf "Pixel", .leaf "Pixel"]],
    by decide +kernel, by decide +kernel⟩

/-- **C73** What does hold: when numbers are returned, every non-empty container of a level fits into
the dimension of its level.  Missing: the success in the presence of empty containers. -/
theorem C73_empty_pack_partial (system : Elem) (dims : List (String × Nat)) (h : hierarchyDims system = .ok dims) (l : Nat)
    (t : String) (es : List Elem) (ho : Occurs system l (.container t es)) (hne : es ≠ []) :
    ∃ x, dims[l]? = some x ∧ es.length ≤ x.2 := dims_bound h ho hne

section
variable {F : Type} [Field F] [LinearOrder F] [IsStrictOrderedRing F] [FloorRing F]

/-- **C25** Times: inside `[tofmin, tofmax)` the channel is the one whose half-open interval contains the time,
and there are at most `⌈(tofmax - tofmin)/tofstep⌉` of them; everything else is rejected. -/
theorem C25_tof (tofmin tofmax tofstep t : F) (c : Tof2Channel F) (hc : mkTof2Channel tofmin tofmax tofstep = .ok c) :
    (t < tofmin ∨ tofmax ≤ t → c.call t = -1) ∧
    (tofmin ≤ t → t < tofmax → 0 ≤ c.call t ∧ tofmin + c.call t * tofstep ≤ t ∧ t < tofmin + (c.call t + 1) * tofstep ∧
      c.call t < ⌈(tofmax - tofmin) / tofstep⌉) := by
  unfold mkTof2Channel at hc
  split at hc
  · exact absurd hc (by simp)
  · split at hc
    · exact absurd hc (by simp)
    · rename_i h1 h2
      simp only [Except.ok.injEq] at hc
      subst hc
      rw [not_le] at h1 h2
      refine ⟨fun h => by simp [Tof2Channel.call, h], fun h3 h4 => ?_⟩
      have hnn : 0 ≤ (t - tofmin) / tofstep := div_nonneg (by linarith) h2.le
      have hcall : (⟨tofmin, tofmax, tofstep⟩ : Tof2Channel F).call t = ⌊(t - tofmin) / tofstep⌋ := by
        simp only [Tof2Channel.call, truncInt]
        rw [if_neg (by rw [not_or, not_lt, not_le]; exact ⟨h3, h4⟩), if_pos hnn]
      rw [hcall]
      refine ⟨Int.floor_nonneg.2 hnn, ?_, ?_, ?_⟩
      · have := Int.floor_le ((t - tofmin) / tofstep)
        rw [le_div_iff₀ h2] at this; linarith
      · have := Int.lt_floor_add_one ((t - tofmin) / tofstep)
        rw [div_lt_iff₀ h2] at this; linarith
      · rw [Int.lt_ceil]
        refine lt_of_le_of_lt (Int.floor_le _) ?_
        exact (div_lt_div_iff_of_pos_right h2).2 (by linarith)

omit [IsStrictOrderedRing F] [FloorRing F] in
/-- **C25** Impossible binnings are refused. -/
theorem C25_tof_refused (tofmin tofmax tofstep : F) (h : tofmax ≤ tofmin ∨ tofstep ≤ 0) :
    mkTof2Channel tofmin tofmax tofstep = .error .cppException := by
  unfold mkTof2Channel
  split
  · rfl
  · rename_i h1; rw [if_pos (h.resolve_left h1)]

example : ∃ c, mkTof2Channel (0 : ℚ) 1 (3 / 10) = .ok c ∧ c.call (19 / 20) = 3 ∧ c.call 1 = -1 :=
  ⟨⟨0, 1, 3 / 10⟩, by norm_num [mkTof2Channel], by decide +kernel, by decide +kernel⟩
end

/-- **C25** Heights: for a tube with at least two pixels whose centres are `p0 + i d`, a point gets
the number of the pixel whose part of the tube (half a pixel to each side of the centre) contains
its projection on the axis, and `-1` if there is none. -/
theorem C25_height (p0 d : V3 ℝ) (hd : 0 < V3.dot d d) (n : Nat) (hn : 2 ≤ n) :
    ∃ c, tubeChannel ((List.range n).map (fun i : Nat => p0 + (i : ℝ) • d)) = .ok c ∧ ∀ r : V3 ℝ,
      (∀ i : Nat, c.call r = i ↔ i < n ∧ -(V3.dot d d) / 2 ≤ V3.dot (r - (p0 + (i : ℝ) • d)) d ∧
        V3.dot (r - (p0 + (i : ℝ) • d)) d < V3.dot d d / 2) ∧
      (c.call r = -1 ↔ V3.dot (r - p0) d < -(V3.dot d d) / 2 ∨ V3.dot d d / 2 ≤ V3.dot (r - (p0 + ((n : ℝ) - 1) • d)) d) := by
  obtain ⟨m, rfl⟩ : ∃ m, n = m + 2 := ⟨n - 2, by omega⟩
  set L2 := V3.dot d d with hL2
  have hs : 0 < Real.sqrt L2 := Real.sqrt_pos.2 hd
  have hss : Real.sqrt L2 * Real.sqrt L2 = L2 := Real.mul_self_sqrt hd.le
  have hm1 : (0 : ℝ) < (m : ℝ) + 1 := by positivity
  have hD : V3.dot (((m : ℝ) + 1) • d) (((m : ℝ) + 1) • d) = ((m : ℝ) + 1) ^ 2 * L2 := by
    rw [hL2]; simp [V3.dot]; ring
  have hlen1 : Real.sqrt (V3.dot (((m : ℝ) + 1) • d) (((m : ℝ) + 1) • d)) = ((m : ℝ) + 1) * Real.sqrt L2 := by
    rw [hD, Real.sqrt_mul (by positivity), Real.sqrt_sq hm1.le]
  have hsub : (p0 + ((m : ℝ) + 1) • d) - (p0 + (0 : ℝ) • d) = ((m : ℝ) + 1) • d := by
    ext <;> simp
  refine ⟨⟨Real.sqrt L2, m + 2, ⟨d.x / Real.sqrt L2, d.y / Real.sqrt L2, d.z / Real.sqrt L2⟩, p0⟩, ?_, ?_⟩
  · have hhead : ((List.range (m + 2)).map (fun i : Nat => p0 + (i : ℝ) • d)).head? = some p0 := by
      rw [List.range_succ_eq_map]
      simp only [List.map_cons, List.head?_cons, Option.some.injEq]
      ext <;> simp
    have hlast : ((List.range (m + 2)).map (fun i : Nat => p0 + (i : ℝ) • d)).getLast? = some (p0 + ((m : ℝ) + 1) • d) := by
      rw [show m + 2 = (m + 1) + 1 from rfl, List.range_succ, List.map_append]
      simp
    have hsub' : (p0 + ((m : ℝ) + 1) • d) - p0 = ((m : ℝ) + 1) • d := by ext <;> simp
    simp only [tubeChannel, hhead, hlast, List.length_map, List.length_range, hsub', hlen1]
    rw [if_neg (by omega)]
    have htl : ((m : ℝ) + 1) * Real.sqrt L2 * ((m + 2 : Nat) : ℝ) / (((m + 2 : Nat) : ℝ) - 1) = Real.sqrt L2 * ((m + 2 : Nat) : ℝ) := by
      push_cast
      have : (m : ℝ) + 2 - 1 ≠ 0 := by linarith
      field_simp
      ring
    rw [htl]
    have hpos : 0 < Real.sqrt L2 * ((m + 2 : Nat) : ℝ) := by positivity
    have hne : ((m + 2 : Nat) : ℝ) ≠ 0 := by positivity
    rw [mkZ2Channel, if_neg (not_le.2 hpos), if_neg (by omega)]
    congr 2
    · rw [mul_div_cancel_right₀ _ hne]
    · ext <;> simp <;> field_simp
  · intro r
    set q := V3.dot (r - p0) d with hq
    have hz : V3.dot (r - p0) ⟨d.x / Real.sqrt L2, d.y / Real.sqrt L2, d.z / Real.sqrt L2⟩ / Real.sqrt L2 = q / L2 := by
      rw [hq]
      simp only [V3.dot]
      nth_rewrite 5 [← hss]
      field_simp
    have hqi : ∀ x : ℝ, V3.dot (r - (p0 + x • d)) d = q - x * L2 := by
      intro x; rw [hq, hL2]; simp [V3.dot]; ring
    simp only [Z2Channel.call, hz, hqi]
    have hmul : q / L2 * L2 = q := div_mul_cancel₀ _ hd.ne'
    have key : ∀ i : Int, ⌊q / L2 + 1 / 2⌋ = i ↔ -L2 / 2 ≤ q - i * L2 ∧ q - i * L2 < L2 / 2 := by
      intro i
      rw [Int.floor_eq_iff, ← sub_le_iff_le_add, ← lt_sub_iff_add_lt, le_div_iff₀ hd, div_lt_iff₀ hd]
      constructor <;> rintro ⟨h1, h2⟩ <;> constructor <;> linarith
    constructor
    · intro i
      have k := key i
      rw [Int.cast_natCast] at k
      rw [← k]
      split
      · rename_i h
        constructor
        · intro h'; omega
        · rintro ⟨h1, h2⟩; omega
      · rename_i h
        constructor
        · intro h'; exact ⟨by omega, h'⟩
        · rintro ⟨-, h2⟩; exact h2
    · have hneg : ⌊q / L2 + 1 / 2⌋ < 0 ↔ q < -L2 / 2 := by
        rw [Int.floor_lt, Int.cast_zero, ← lt_sub_iff_add_lt, div_lt_iff₀ hd]
        constructor <;> intro h <;> linarith
      have hbig : ((m + 2 : Nat) : Int) ≤ ⌊q / L2 + 1 / 2⌋ ↔ L2 / 2 ≤ q - (((m + 2 : Nat) : ℝ) - 1) * L2 := by
        rw [Int.le_floor, Int.cast_natCast, ← sub_le_iff_le_add, le_div_iff₀ hd]
        constructor <;> intro h <;> linarith
      rw [← hneg, ← hbig]
      split
      · rename_i h; exact ⟨fun _ => h, fun _ => rfl⟩
      · rename_i h
        constructor
        · intro h'; omega
        · intro h'; exact absurd h' h

example : 0 < V3.dot (⟨0, 0, 1 / 100⟩ : V3 ℝ) ⟨0, 0, 1 / 100⟩ ∧ 2 ≤ 100 := by
  constructor <;> norm_num [V3.dot]

/-- **C74** (negation) A tube with a single pixel cannot be built: ZeroDivisionError. -/
theorem C74_single_pixel_false : ∃ p : V3 ℝ, tubeChannel [p] = .error .zeroDivision := by
  refine ⟨⟨0, 0, 0⟩, ?_⟩
  simp [tubeChannel]

/-- **C74** What does hold: with at least two pixels at different places the tube is built.
Missing: one pixel. -/
theorem C74_single_pixel_partial (p0 d : V3 ℝ) (hd : 0 < V3.dot d d) (n : Nat) (hn : 2 ≤ n) :
    ∃ c, tubeChannel ((List.range n).map (fun i : Nat => p0 + (i : ℝ) • d)) = .ok c ∧ c.npixels = n := by
  obtain ⟨c, hc, -⟩ := C25_height p0 d hd n hn
  refine ⟨c, hc, ?_⟩
  unfold tubeChannel at hc
  split at hc
  · simp only at hc
    split at hc
    · exact absurd hc (by simp)
    · simp only [mkZ2Channel] at hc
      split at hc
      · exact absurd hc (by simp)
      · split at hc
        · exact absurd hc (by simp)
        · simp only [Except.ok.injEq] at hc
          subst hc; simp
  · exact absurd hc (by simp)

end Verif.Detector
