import Verif.Model.Vec
import Verif.Model.Base
/-!
Processing of a buffer of events by a scatterer
(`packages/mcni/lib/mcni/process_neutron_events.cc`) and snapshots
(`packages/mcni/lib/neutron/EventBuffer.cc`).

`E` is the type of events, `absorbed e` stands for `e.probability < 0`.  A scatterer
may have internal state `σ` (random numbers, counters).
-/

namespace Verif.Buffer

/-- The loop of `_process_T`, `process_neutron_events.cc:29-58`: `nn` events are still alive,
those before `index` have been processed.  One iteration scatters the event at `index`;
an absorbed event is swapped with the last live one, otherwise `index` advances. -/
def processLoop {E σ : Type} (absorbed : E → Bool) (scatter : σ → E → σ × E)
    (s : σ) (evts : List E) (index nn : Nat) : σ × List E × Nat :=
  if _h : index < nn then
    match evts[index]? with
    | none => (s, evts, nn)      -- not reached: `nn ≤ evts.length`
    | some ev =>
      let (s', ev') := scatter s ev
      let evts1 := evts.set index ev'
      if absorbed ev' then
        -- swap_temp = evts[index]; evts[index] = evts[nn-1]; evts[nn-1] = swap_temp
        match evts1[nn - 1]? with
        | none => (s', evts1, nn)  -- not reached
        | some last => processLoop absorbed scatter s' ((evts1.set index last).set (nn - 1) ev') index (nn - 1)
      else processLoop absorbed scatter s' evts1 (index + 1) nn
  else (s, evts, nn)
termination_by nn - index

/-- `mcni::process`, `process_neutron_events.cc:29-58,97-101`: the loop and the final `erase`. -/
def process {E σ : Type} (absorbed : E → Bool) (scatter : σ → E → σ × E) (s : σ) (evts : List E) : σ × List E :=
  let (s', evts', nn) := processLoop absorbed scatter s evts 0 evts.length
  (s', evts'.take nn)

/-- `mcni::processM`, `process_neutron_events.cc:67-93,103-107`: for every event the
(cleared) buffer `scattered` is filled by `scatterM`, and what is not absorbed is appended to the result. -/
def processM {E σ : Type} (absorbed : E → Bool) (scatterM : σ → E → σ × List E) (s : σ) (evts : List E) : σ × List E :=
  evts.foldl (fun (acc : σ × List E) ev =>
    let (s', scattered) := scatterM acc.1 ev
    (s', acc.2 ++ scattered.filter (fun e => !absorbed e))) (s, [])

/-- `EventBuffer::snapshot(n)`, `EventBuffer.cc:33-48`: copy the events among the first `n` which
are not `isInValid` (`probability <= 0`); reading beyond the end is undefined behaviour. -/
def snapshot {F : Type} [LE F] [Zero F] [DecidableRel (α := F) (· ≤ ·)] (evts : List (Event F)) (n : Nat) :
    Except Err (List (Event F)) :=
  if n ≤ evts.length then .ok ((evts.take n).filter (fun e => !decide (e.p ≤ 0)))
  else .error .undefinedBehaviour

end Verif.Buffer
