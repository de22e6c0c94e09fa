import Verif.Lemmas.Help
/-!
Properties of asking for help (C362).
-/

namespace Verif.Help

open Spec

/-- **C362** (partial): if help is asked for an application that is a worker (or without parallel computing), or for any component at any depth, no
simulation is started and every component is told so; otherwise, nothing changes and the simulation starts. Missing: the server, see
`C362_server_false`. -/
theorem C362_partial (app : Comp) (h : ∀ c, Within c app → c.flag = false) :
    ((∃ c, Within c app ∧ c.asked = true) → act .worker app = .help ∧ bare (init .worker app) = bare app ∧
      ∀ c, Within c (init .worker app) → c.flag = true) ∧
    ((∀ c, Within c app → c.asked = false) → act .worker app = .simulate ∧ init .worker app = app) := by
  constructor
  · intro hr
    have hq := (requested_iff app).2 hr
    have hi : init .worker app = setAll app := by
      unfold init beforeInventory
      rw [hq, Bool.or_true, if_pos rfl]
      cases app with
      | mk a f n s => simp [tellNeutrons, initInventory, setAll]
    refine ⟨?_, ?_, ?_⟩
    · unfold act
      rw [hi, setAll_flag]
      rfl
    · rw [hi, bare_setAll]
    · rw [hi]
      exact fun c hc => within_setAll hc app rfl
  · intro hn
    have hq : requested app = false := by
      by_contra hq
      obtain ⟨c, hc, ha⟩ := (requested_iff app).1 (by simpa using hq)
      rw [hn c hc] at ha
      cases ha
    have hi := flags_worker app h hq
    refine ⟨?_, hi⟩
    unfold act
    rw [hi, h app (.here _)]
    rfl

/-- help asked for a component of a component -/
example : act .worker (.mk false false false [.mk false false true [], .mk false false true [.mk true false false []]]) = .help ∧
    act .worker (.mk false false false [.mk false false true [], .mk false false true [.mk false false false []]]) = .simulate := by
  decide

/-- the hypotheses hold for it -/
example : ∀ c, Within c (.mk false false false [.mk true false true []]) → c.flag = false := by
  intro c hc
  cases hc with
  | here => rfl
  | sub hd h =>
    obtain rfl := List.mem_singleton.1 hd
    cases h with
    | here => rfl
    | sub hd h => simp [Comp.subs] at hd

/-- **C362** all flags of the descendants are set before any component is initialized, whichever component asked. -/
theorem C362_before (app : Comp) (hr : app.flag = true ∨ ∃ c, Within c app ∧ c.asked = true) :
    bare (beforeInventory app) = bare app ∧ ∀ c, Within c (beforeInventory app) → c.flag = true := by
  have hb : beforeInventory app = setAll app := by
    unfold beforeInventory
    rcases hr with hr | hr
    · rw [hr]; rfl
    · rw [(requested_iff app).2 hr, Bool.or_true]; rfl
  rw [hb]
  exact ⟨bare_setAll app, fun c hc => within_setAll hc app rfl⟩

/-- the option `dump-pml` sets the flag of the application (`Instrument.py:255`) -/
example : (Comp.mk false true false [.mk false false true []]).flag = true := rfl

/-- **C362** is false on the server, which is the usual mode of parallel applications: whatever help is asked for, and whatever the flag of the
application is (`dump-pml`), the flag is taken back and the parallel program is started. -/
theorem C362_server_false (app : Comp) : act .server app = .launch := by
  unfold act init
  generalize initInventory (tellNeutrons .server (beforeInventory app)) = x
  cases x
  rfl

/-- help asked for the application itself and a component -/
example : act .server (.mk true true false [.mk true false true []]) = .launch := C362_server_false _

end Verif.Help
