import Verif.Lemmas.Geometer
import Mathlib.Data.Rat.Defs
/-!
Property theorems about placement of components: C18, C67.
-/

namespace Verif.Geometer
open Verif.Frames
variable {N F : Type} [CommRing F] [DecidableEq N]

/-- every `register` call of the history is for an element that is not registered yet -/
def FreshHistory (toM : V3 F → M3 F) (fuel : Nat) : Geo N F → List (Op N F) → Prop
  | _, [] => True
  | g, op :: ops => (match op with | .register e _ _ => g.reg e = none | _ => True) ∧
      FreshHistory toM fuel (op.apply toM fuel g) ops

/-- **C18** After any history of calls in which elements are registered once, with queries in
between, a query of position or orientation
* never gives anything but the composition of placements along the reference chain, and
* gives it whenever the chain ends in an absolute placement (and the interpreter's
  recursion limit is not in the way). -/
theorem C18_placement (toM : V3 F → M3 F) (seq : Option (List N)) (fuel : Nat) (ops : List (Op N F))
    (h : FreshHistory toM fuel (empty seq) ops) (e : N) :
    let g := ops.foldl (fun g op => op.apply toM fuel g) (empty seq)
    (∀ fuel' p, (position toM fuel' g e).1 = .ok p → HasPos toM g.reg seq e p) ∧
    (∀ p, HasPos toM g.reg seq e p → ∃ L, ∀ fuel' ≥ L, (position toM fuel' g e).1 = .ok p) ∧
    (∀ fuel' o, (orientation toM fuel' g e).1 = .ok o → HasOri toM g.reg seq e (o.matrix toM)) ∧
    (∀ m, HasOri toM g.reg seq e m → ∃ L, ∀ fuel' ≥ L, ∃ o, (orientation toM fuel' g e).1 = .ok o ∧ o.matrix toM = m) := by
  intro g
  have key : ∀ (ops : List (Op N F)) (g0 : Geo N F), Consistent toM g0 → FreshHistory toM fuel g0 ops →
      Consistent toM (ops.foldl (fun g op => op.apply toM fuel g) g0) ∧
      (ops.foldl (fun g op => op.apply toM fuel g) g0).seq = g0.seq := by
    intro ops
    induction ops with
    | nil => intro g0 hc _; exact ⟨hc, rfl⟩
    | cons op ops ih =>
      intro g0 hc hf
      obtain ⟨hf1, hf2⟩ := hf
      have hstep : Consistent toM (op.apply toM fuel g0) ∧ (op.apply toM fuel g0).seq = g0.seq := by
        cases op with
        | register e p o => exact ⟨consistent_register p o hf1 hc, rfl⟩
        | position e => have := (position_sound toM fuel g0 e hc).1; exact ⟨this.cons, this.seq⟩
        | orientation e => have := (orientation_sound toM fuel g0 e hc).1; exact ⟨this.cons, this.seq⟩
      obtain ⟨i1, i2⟩ := ih _ hstep.1 hf2
      exact ⟨i1, i2.trans hstep.2⟩
  obtain ⟨hc, hs⟩ := key ops (empty seq) (consistent_empty toM seq) h
  have hs : g.seq = seq := hs
  have hps := fun f => position_sound toM f g e hc
  have hos := fun f => orientation_sound toM f g e hc
  rw [hs] at hps hos
  refine ⟨fun f p hp => (hps f).2 p hp, ?_, fun f o ho => (hos f).2 o ho, ?_⟩
  · intro p hp
    obtain ⟨L, hL⟩ := position_complete toM hp
    refine ⟨L, fun f hf => ?_⟩
    obtain ⟨p', hp'⟩ := hL f hf g rfl hs hc
    rw [hp', ((hps f).2 p' hp').unique p hp]
  · intro m hm
    obtain ⟨L, hL⟩ := orientation_complete toM hm
    refine ⟨L, fun f hf => ?_⟩
    obtain ⟨o, ho⟩ := hL f hf g rfl hs hc
    exact ⟨o, ho, ((hos f).2 o ho).unique m hm⟩

/-- **C18** A reference chain that does not end in an absolute placement (missing
element, element without predecessor, self-referring or cyclic references) is
always reported as an error. -/
theorem C18_bad_reference (toM : V3 F → M3 F) (seq : Option (List N)) (fuel : Nat) (ops : List (Op N F))
    (h : FreshHistory toM fuel (empty seq) ops) (e : N) :
    let g := ops.foldl (fun g op => op.apply toM fuel g) (empty seq)
    (∀ p, ¬ HasPos toM g.reg seq e p) → ∀ fuel', ∃ er, (position toM fuel' g e).1 = .error er := by
  intro g hn fuel'
  have := (C18_placement toM seq fuel ops h e).1 fuel'
  cases hr : (position toM fuel' g e).1 with
  | error er => exact ⟨er, rfl⟩
  | ok p => exact absurd (this p hr) (hn p)

/-- a component placed relative to the previous one, and one relative to that; queried in between -/
def exampleOps : List (Op String ℚ) :=
  [.register "a" (.absolute ⟨0, 0, 1⟩) (.absolute (.mat ⟨⟨0, 1, 0⟩, ⟨-1, 0, 0⟩, ⟨0, 0, 1⟩⟩)),
   .position "a",
   .register "b" (.relative ⟨1, 0, 2⟩ .previous) (.relative (.mat M3.one) (.elem "a")),
   .orientation "b",
   .register "c" (.relative ⟨0, 0, 1⟩ (.elem "b")) (.absolute (.mat M3.one)),
   .register "x" (.relative ⟨0, 0, 1⟩ (.elem "x")) (.absolute (.mat M3.one))]

example : FreshHistory (fun _ => M3.one) 100 (empty (some ["a", "b", "c", "x"])) exampleOps ∧
    (position (fun _ => M3.one) 100 (exampleOps.foldl (fun g op => op.apply (fun _ => M3.one) 100 g)
      (empty (some ["a", "b", "c", "x"]))) "c").1 = .ok ⟨0, 1, 4⟩ := by
  refine ⟨⟨rfl, trivial, rfl, trivial, rfl, rfl, trivial⟩, ?_⟩
  decide +kernel

/-- **C67** (negation) A second registration of an element is ignored once its position
has been asked for. -/
theorem C67_reregister_false : ∃ (g : Geo String ℚ) (p : V3 ℚ),
    let g1 := register (empty (some ["a"])) "a" (.absolute ⟨0, 0, 1⟩) (.absolute (.angles ⟨0, 0, 0⟩))
    let g2 := (position (fun _ => M3.one) 100 g1 "a").2
    g = register g2 "a" (.absolute p) (.absolute (.angles ⟨0, 0, 0⟩)) ∧
    ∀ fuel, (position (fun _ => M3.one) fuel g "a").1 = .ok ⟨0, 0, 1⟩ ∧ p ≠ ⟨0, 0, 1⟩ := by
  refine ⟨_, ⟨0, 0, 2⟩, rfl, fun fuel => ⟨?_, by decide⟩⟩
  cases fuel <;> rfl

/-- **C67** What does hold: re-registration before any query takes effect, for the element
and for everything placed relative to it.  Missing: re-registration after queries. -/
theorem C67_reregister_partial (toM : V3 F → M3 F) (seq : Option (List N))
    (regs : List (N × Coord (V3 F) N × Coord (Ori F) N)) (e : N) :
    let g := regs.foldl (fun g (r : N × Coord (V3 F) N × Coord (Ori F) N) => register g r.1 r.2.1 r.2.2) (empty seq)
    (∀ x, g.reg x = (regs.reverse.find? (fun r => decide (r.1 = x))).map Prod.snd) ∧
    (∀ fuel' p, (position toM fuel' g e).1 = .ok p → HasPos toM g.reg seq e p) ∧
    (∀ p, HasPos toM g.reg seq e p → ∃ L, ∀ fuel' ≥ L, (position toM fuel' g e).1 = .ok p) := by
  intro g
  have key : ∀ (regs : List (N × Coord (V3 F) N × Coord (Ori F) N)) (g0 : Geo N F),
      let g := regs.foldl (fun g (r : N × Coord (V3 F) N × Coord (Ori F) N) => register g r.1 r.2.1 r.2.2) g0
      (∀ x, g.reg x = ((regs.reverse.find? (fun r => decide (r.1 = x))).map Prod.snd).or (g0.reg x)) ∧
      g.abspos = g0.abspos ∧ g.absori = g0.absori ∧ g.seq = g0.seq := by
    intro regs
    induction regs with
    | nil => intro g0; simp
    | cons r regs ih =>
      intro g0
      obtain ⟨i1, i2, i3, i4⟩ := ih (register g0 r.1 r.2.1 r.2.2)
      refine ⟨fun x => ?_, i2, i3, i4⟩
      rw [List.foldl_cons, i1 x, List.reverse_cons, List.find?_append]
      cases List.find? (fun r : N × Coord (V3 F) N × Coord (Ori F) N => decide (r.1 = x)) regs.reverse with
      | some v => simp
      | none =>
        by_cases hx : r.1 = x
        · subst hx; simp [register, upd]
        · have : ¬ x = r.1 := fun h => hx h.symm
          simp [register, upd, hx, this]
  obtain ⟨k1, k2, k3, k4⟩ := key regs (empty seq)
  have hc : Consistent toM g :=
    ⟨fun x o h => by rw [show g.absori = _ from k3] at h; simp [empty] at h,
     fun x o h => by rw [show g.abspos = _ from k2] at h; simp [empty] at h⟩
  have hs : g.seq = seq := k4
  refine ⟨fun x => by rw [show g.reg x = _ from k1 x]; simp [empty], ?_, ?_⟩
  · intro f p hp
    have := (position_sound toM f g e hc).2 p hp
    rwa [hs] at this
  · intro p hp
    obtain ⟨L, hL⟩ := position_complete toM hp
    refine ⟨L, fun f hf => ?_⟩
    obtain ⟨p', hp'⟩ := hL f hf g rfl hs hc
    have := (position_sound toM f g e hc).2 p' hp'
    rw [hs] at this
    rw [hp', this.unique p hp]

example : (position (fun _ => M3.one) 9 ([("a", Coord.absolute ⟨0, 0, 1⟩, Coord.absolute (Ori.mat M3.one)),
    ("b", .relative ⟨0, 0, 1⟩ (.elem "a"), .absolute (.mat M3.one)),
    ("a", .absolute ⟨0, 0, 5⟩, .absolute (.mat M3.one))].foldl
      (fun g (r : String × Coord (V3 ℚ) String × Coord (Ori ℚ) String) => register g r.1 r.2.1 r.2.2) (empty none)) "b").1 =
    .ok ⟨0, 0, 6⟩ := by decide +kernel

end Verif.Geometer
