import Verif.Model.PmapBuild
import Verif.Model.SipmSelect
import Verif.Model.Sources
import Verif.Model.Chain
/-!
# Model of a run of irene or hypathia: the events of the source, the filters and the output file

The waveforms of an event give a PMap (`Model/PmapBuild`); `compute_and_write_pmaps` filters the events without samples over the thresholds and those without peaks, writes the
flags and the PMaps, and the city writes the numbers and times of the events that are left.  Not modelled: the tables of the trigger, the MC information and the copy of the database.
-/
namespace Verif.IreneRun
open Verif.PMaps (Peak)

/-- An item of `wf_from_files` (components.py:584-589) that is in the range of events: `W` are the waveforms of the PMTs, `V` those of the SiPMs. -/
structure Raw (W V : Type) where
  event : Int
  ts : ℚ
  pmt : W
  sipm : V

/-- What is written for an event: the flag of `s12_indices`, that of `empty_pmap` if the event reaches that filter, and the PMap if the event passes it. -/
structure Out where
  indices : Bool
  peaks : Option Bool
  pmap : Option PMapsIO.PMap
deriving DecidableEq

/-- The filters and writers of `compute_and_write_pmaps` (components.py:1306-1342; `check_nonempty_indices` and `check_empty_pmap`, components.py:481-486) once the PMap, if
any, is computed (`none` for an event without samples over one of the thresholds). -/
def filterPmap : Option (List Peak × List Peak) → Out
  | none => ⟨false, none, none⟩
  | some (s1s, s2s) => if s1s ≠ [] ∨ s2s ≠ [] then ⟨true, some true, some ⟨s1s, s2s⟩⟩ else ⟨true, some false, none⟩

/-- An event of the city; `f` computes the PMap. -/
def runEvent {W V : Type} (f : W → V → Except PyErr (Option (List Peak × List Peak))) (r : Raw W V) : Except PyErr Out :=
  match f r.pmt r.sipm with
  | .error e => .error e
  | .ok p => .ok (filterPmap p)

/-- The rows of `Filters/s12_indices` (components.py:1325, 1330, 1334; event_filter_io.py:16-19). -/
def indicesRows {W V : Type} (evs : List (Raw W V × Out)) : List (Int × Bool) := evs.map fun x => (x.1.event, x.2.indices)

/-- The rows of `Filters/empty_pmap` (components.py:1326, 1331, 1339). -/
def peaksRows {W V : Type} (evs : List (Raw W V × Out)) : List (Int × Bool) := evs.filterMap fun x => x.2.peaks.map fun b => (x.1.event, b)

/-- The PMaps written, with the number of their event (components.py:1324, 1329, 1341). -/
def pmapRows {W V : Type} (evs : List (Raw W V × Out)) : List (Int × PMapsIO.PMap) := evs.filterMap fun x => x.2.pmap.map fun p => (x.1.event, p)

/-- The rows of `Run/events` (irene.py:159-160, hypathia.py:163-164): the events that pass both filters. -/
def eventRows {W V : Type} (evs : List (Raw W V × Out)) : List (Int × ℚ) := evs.filterMap fun x => x.2.pmap.map fun _ => (x.1.event, x.1.ts)

/-- The output: the two tables of flags, and the file as the next city sees it. -/
structure Output where
  indices : List (Int × Bool)
  peaks : List (Int × Bool)
  file : Sources.PmapFile

/-- The run (irene.py:148-160, hypathia.py:149-164): the tables of the PMaps (pmaps_io.py:61-63) and of the run (run_and_event_io.py:23-28) are made with the writers, hence
they exist even if no event passes; an exception ends the run. -/
def cityRun {W V : Type} (f : W → V → Except PyErr (Option (List Peak × List Peak))) (run : Int) (raws : List (Raw W V)) : Except PyErr Output :=
  match raws.mapM (runEvent f) with
  | .error e => .error e
  | .ok outs => match PMapsIO.storeAll (pmapRows (raws.zip outs)) PMapsIO.Tables.empty with
    | .error e => .error e
    | .ok t => .ok ⟨indicesRows (raws.zip outs), peaksRows (raws.zip outs),
        ⟨some ⟨some (List.replicate (eventRows (raws.zip outs)).length run), none, some (eventRows (raws.zip outs))⟩, some t⟩⟩

/-- The configuration of irene: parameters of the deconvolution and of the moving average, searches, tables of sensors of the run and numbers of samples. -/
structure Irene where
  tan : ℚ → ℚ
  conf : PmapBuild.Config
  nBaseline : Nat
  nMaw : Nat
  thrMaw : ℚ
  pmts : List LoadDb.PmtRow
  sipms : List LoadDb.SipmRow
  n : Nat
  nSipm : Nat

/-- The PMap of an event in irene (irene.py:152-156). -/
def Irene.pmap (c : Irene) (pmt : List (List ℚ)) (sipm : List (List Int)) : Except PyErr (Option (List Peak × List Peak)) :=
  PmapBuild.ireneEvent c.tan c.conf c.nBaseline c.nMaw c.thrMaw c.pmts c.sipms pmt c.n sipm c.nSipm

/-- A run of irene (irene.py:128-165). -/
def ireneRun (c : Irene) (run : Int) (raws : List (Raw (List (List ℚ)) (List (List Int)))) : Except PyErr Output := cityRun c.pmap run raws

/-- The configuration of hypathia; the fluctuation of the charge and the simulation of the SiPMs are parameters. -/
structure Hypathia where
  conf : PmapBuild.Config
  fluct : Mat → Except PyErr Mat
  simSipm : List (List ℚ) → Except PyErr (List (List Int))
  stride : Nat
  pmts : List LoadDb.PmtRow
  sipms : List LoadDb.SipmRow
  nSipm : Nat

/-- The PMap of an event in hypathia (hypathia.py:153-160). -/
def Hypathia.pmap (c : Hypathia) (pmt : Mat) (sipm : List (List ℚ)) : Except PyErr (Option (List Peak × List Peak)) :=
  PmapBuild.hypathiaEvent c.conf c.fluct c.simSipm c.stride c.pmts c.sipms pmt sipm c.nSipm

/-- A run of hypathia (hypathia.py:131-169). -/
def hypathiaRun (c : Hypathia) (run : Int) (raws : List (Raw Mat (List (List ℚ)))) : Except PyErr Output := cityRun c.pmap run raws

/-- The items read from the files of PMaps as events for sophronia or dorothea (sophronia.py:224, dorothea.py:125). -/
def inputs (items : List Sources.PmapItem) : List Chain.Input := items.map fun i => ⟨i.event, i.timestamp, i.pmap.s1s, i.pmap.s2s⟩

end Verif.IreneRun
