import Verif.Lemmas.Group
import Verif.Props.Frames
/-!
Property theorems C47: groups of components.
-/

namespace Verif.Group
variable {F S : Type} [Field F] [LinearOrder F] {input : Nat}

/-- C47.  Whatever the members of a group do to the buffers they get, to those of the other members, and to what they share: the
neutrons that leave the group are those that entered, in the same buffer, and every member is given the neutrons of
positive probability among those that entered, moved from the frame of the group to its own. -/
theorem C47_same {cs : List (Member F S)} {s s' : S} {h h' : Heap F} {out : Nat} {gots : List (List (Event F))}
    (hd : ∀ c ∈ cs, Discreet input c) (hi : input < h.next) (e : process cs s h input = .ok (out, s', h', gots)) :
    out = input ∧ h'.get out = h.get input ∧
    gots = cs.map fun c => Frames.transport ⟨⟨0, 0, 0⟩, ⟨⟨1, 0, 0⟩, ⟨0, 1, 0⟩, ⟨0, 0, 1⟩⟩⟩ c.frame
      ((h.get input).filter fun e => decide (0 < e.p)) := by
  unfold process at e
  simp only [bind, Except.bind] at e
  split at e
  · simp at e
  · next r er =>
    obtain ⟨s1, h1, gots1⟩ := r
    simp only [Except.ok.injEq, Prod.mk.injEq] at e
    obtain ⟨rfl, -, rfl, rfl⟩ := e
    obtain ⟨k1, k2⟩ := loop_spec hd hi rfl er
    refine ⟨rfl, k1, ?_⟩
    rw [k2]
    have : (fun e : Event F => !decide (e.p ≤ 0)) = fun e => decide (0 < e.p) := by
      funext e
      by_cases he : 0 < e.p
      · simp [he, not_le.2 he]
      · simp [he, not_lt.1 he]
    rw [this]
    rfl

/-- C47.  In the frame of the group every member finds the same neutrons, at the same places, whatever the others do; provided its
frame has no displacement or rotation below the tolerance of `C19`. -/
theorem C47_place {cs : List (Member F S)} {s s' : S} {h h' : Heap F} {out : Nat} {gots : List (List (Event F))}
    (hd : ∀ c ∈ cs, Discreet input c) (hi : input < h.next) (e : process cs s h input = .ok (out, s', h', gots))
    (hf : ∀ c ∈ cs, Frames.IsOrtho c.frame.rot ∧ Frames.Sharp c.frame.pos c.frame.rot) :
    List.Forall₂ (fun (c : Member F S) got =>
      got.map (fun ev => (Frames.labPos c.frame.pos c.frame.rot ev.r, Frames.labVec c.frame.rot ev.v, ev.s1, ev.s2, ev.t, ev.p)) =
      ((h.get input).filter fun e => decide (0 < e.p)).map (fun ev => (ev.r, ev.v, ev.s1, ev.s2, ev.t, ev.p))) cs gots := by
  obtain ⟨-, -, rfl⟩ := C47_same hd hi e
  rw [List.forall₂_map_right_iff, List.forall₂_same]
  intro c hc
  obtain ⟨ho, hs⟩ := hf c hc
  have hrel : Frames.relative (⟨⟨0, 0, 0⟩, ⟨⟨1, 0, 0⟩, ⟨0, 1, 0⟩, ⟨0, 0, 1⟩⟩⟩ : Frames.Frame F) c.frame =
      (c.frame.pos, c.frame.rot) := by
    unfold Frames.relative
    refine Prod.ext ?_ ?_
    · ext <;> simp [M3.mulVec]
    · ext <;> simp [M3.mul, M3.transpose, M3.mulVec]
  have ht : ∀ b : List (Event F), Frames.transport ⟨⟨0, 0, 0⟩, ⟨⟨1, 0, 0⟩, ⟨0, 1, 0⟩, ⟨0, 0, 1⟩⟩⟩ c.frame b =
      Frames.transportExact ⟨⟨0, 0, 0⟩, ⟨⟨1, 0, 0⟩, ⟨0, 1, 0⟩, ⟨0, 0, 1⟩⟩⟩ c.frame b := by
    intro b
    unfold Frames.transport Frames.transportExact
    simp only [hrel]
    exact Frames.abs2relBatch_sharp hs b
  rw [ht, Frames.C16_lab _ _ (by simp [Frames.IsOrtho, V3.dot]) ho]
  apply List.map_congr_left
  intro ev _
  simp only [Prod.mk.injEq, and_true]
  constructor <;> ext <;> simp [Frames.labPos, Frames.labVec]

/-- C47.  The group itself raises no exception: it ends if all members do. -/
theorem C47_total {cs : List (Member F S)} (hc : ∀ c ∈ cs, Discreet input c ∧ ∀ s h r, ∃ x, c.process s h r = .ok x)
    (s : S) (h : Heap F) (hi : input < h.next) : ∃ x, process cs s h input = .ok x := by
  obtain ⟨x, hx⟩ := loop_total (cs := cs) (s := s) (h := h) hc hi rfl
  unfold process
  rw [hx]
  exact ⟨_, rfl⟩

/-- a member that empties its buffer, and that of the member before it, and counts its calls -/
def vandal (f : Frames.Frame ℚ) : Member ℚ Nat := ⟨f, fun s h r => .ok (s + 1, (h.set r []).set (if r ≤ 1 then r else r - 1) [])⟩

/-- memory with one buffer of two neutrons, of which one is absorbed -/
def start : Heap ℚ := ⟨1, fun r => if r = 0 then [⟨⟨0, 0, 0⟩, ⟨0, 0, 1⟩, 0, 0, 0, 1⟩, ⟨⟨0, 0, 0⟩, ⟨0, 0, 1⟩, 0, 0, 0, 0⟩] else []⟩

/-- a frame at a distance of two metres, turned about the vertical by 90 degrees -/
def side : Frames.Frame ℚ := ⟨⟨0, 0, 2⟩, ⟨⟨0, 0, 1⟩, ⟨0, 1, 0⟩, ⟨-1, 0, 0⟩⟩⟩

/-- the hypotheses of `C47_same`, `C47_place` and `C47_total` hold for two members that interfere -/
example : (∀ c ∈ [vandal side, vandal side], Discreet 0 c) ∧ 0 < start.next ∧
    (∀ c ∈ [vandal side, vandal side], Frames.IsOrtho c.frame.rot ∧ Frames.Sharp c.frame.pos c.frame.rot) ∧
    (∃ r, process [vandal side, vandal side] 0 start 0 = .ok r ∧ r.1 = 0 ∧ r.2.1 = 2 ∧
      r.2.2.2 = [[⟨⟨-2, 0, 0⟩, ⟨1, 0, 0⟩, 0, 0, 0, 1⟩], [⟨⟨-2, 0, 0⟩, ⟨1, 0, 0⟩, 0, 0, 0, 1⟩]]) := by
  have hd : Discreet 0 (vandal side) := by
    intro s h r s' h' hr e
    simp only [vandal, Except.ok.injEq, Prod.mk.injEq] at e
    obtain ⟨-, rfl⟩ := e
    constructor
    · simp only [Heap.set]
      rw [if_neg, if_neg hr.symm]
      split <;> omega
    · simp [Heap.set]
  refine ⟨by simpa using hd, by decide, ?_, ⟨_, rfl, rfl, by decide, by decide +kernel⟩⟩
  intro c hc
  have : c.frame = side := by
    simp only [List.mem_cons, List.not_mem_nil, or_false, or_self] at hc
    rw [hc]; rfl
  rw [this]
  refine ⟨by simp [side, Frames.IsOrtho, V3.dot], ⟨fun h => ?_, fun h => ?_⟩⟩
  · exfalso
    have := h.1.1
    norm_num [side] at this
  · exfalso
    have := h.2.2
    norm_num [side] at this

end Verif.Group
