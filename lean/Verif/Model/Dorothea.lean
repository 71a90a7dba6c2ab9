import Verif.Model.IreneRun
import Verif.Model.KrEvent
import Verif.Model.Filters
/-!
# Model of dorothea: the selection of the peaks, the point-like events and the output file

An exception ends the run; what was written before it is in the file (the writers append rows, and the file is closed by the context manager of dorothea.py:118).
Not modelled: the MC information and the copy of the database.
-/
namespace Verif.Dorothea
open Verif.PMaps (Peak)

/-- The configuration: selector (dorothea.py:99-101) and builder of point-like events (dorothea.py:106-111). -/
structure Cfg where
  selector : Filters.Selector
  kr : KrEvent.Builder

/-- What happens with an event: the flag written in the filter, if any, the rows of the kdst, whether the event is written in `Run/events`, and the exception, if any. -/
structure EventOut where
  flag : Option Bool
  rows : List KrEvent.Row
  info : Bool
  exc : Option PyErr

/-- An event (dorothea.py:129-137): the flag is written before the filter (dorothea.py:131-132); the branches of the fork are run in order (dorothea.py:135-137), the rows first and then
the information of the event. -/
def event (c : Cfg) (i : Chain.Input) : EventOut :=
  match Filters.pmapFilter c.selector i.s1s i.s2s with
  | .error e => ⟨none, [], false, some e⟩
  | .ok sel =>
    if !sel.passed then ⟨some false, [], false, none⟩
    else match KrEvent.build c.kr sel.s1Peaks sel.s2Peaks i.s1s i.s2s i.event i.ts with
      | .error e => ⟨some true, [], false, some e⟩
      | .ok ev => match KrEvent.store ev with
        | (rows, some e) => ⟨some true, rows, false, some e⟩
        | (rows, none) => ⟨some true, rows, true, none⟩

/-- The tables of the output file and the exception that ended the run, if any: `Filters/s12_selector` (dorothea.py:123, event_filter_io.py:16-19), `DST/Events` (kdst_io.py:7-20),
`Run/events` and `Run/runInfo` (run_and_event_io.py:23-41). -/
structure Output where
  flags : List (Int × Bool)
  kdst : List KrEvent.Row
  events : List (Int × ℚ)
  runs : List Int
  exc : Option PyErr

/-- The loop over the events (dorothea.py:125-137). -/
def dorotheaRun (c : Cfg) (run : Int) : List Chain.Input → Output
  | [] => ⟨[], [], [], [], none⟩
  | i :: rest =>
    let o := event c i
    let flags := (o.flag.map fun b => (i.event, b)).toList
    let events := if o.info then [(i.event, i.ts)] else []
    let runs := if o.info then [run] else []
    match o.exc with
    | some e => ⟨flags, o.rows, events, runs, some e⟩
    | none => ⟨flags ++ (dorotheaRun c run rest).flags, o.rows ++ (dorotheaRun c run rest).kdst, events ++ (dorotheaRun c run rest).events, runs ++ (dorotheaRun c run rest).runs, (dorotheaRun c run rest).exc⟩

end Verif.Dorothea
