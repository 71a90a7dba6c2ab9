import Verif.Model.DiomiraEvent
import Verif.Model.IreneRun
import Verif.Model.Sources
/-!
# Model of the file that diomira leaves for irene and the calibration cities

What diomira writes for each event (`Model/DiomiraEvent`) in the tables of its output file, and those tables as the next city reads them (`Model/Sources`).
-/
namespace Verif.DiomiraChain
open Verif.DiomiraEvent (Event Out)
open Verif.IreneRun (Raw)

/-- The rows of /Run/events: number and time of the events that pass the trigger (diomira.py:127-129, 147-153; run_and_event_io.py:37-41). -/
def eventRows (es : List (Event × ℚ)) (o : Out) : List (Int × ℚ) := ((es.zip o.triggers).filter fun x => x.2.2).map fun x => (x.1.1.number, x.1.2)

/-- The file: /Run/runInfo and /Run/events, /RD/pmtrwf and /RD/sipmrwf (diomira.py:109-124), without group `Trigger`.  /RD/pmtblr is not read by other cities. -/
def diomiraFile (run : Int) (es : List (Event × ℚ)) (o : Out) : Sources.WfFile (List (List Int)) Unit :=
  ⟨some ⟨some ((eventRows es o).map fun _ => run), none, some (eventRows es o)⟩, some o.pmtrwf, some o.sipmrwf, none, none, none, none⟩

/-- The events of the file as irene (irene.py:148) and the calibration cities get them. -/
def nextSource (run : Int) (es : List (Event × ℚ)) (o : Out) : Sources.Gen (Sources.WfItem (List (List Int)) Unit) := Sources.wfFromFiles .rwf [diomiraFile run es o]

/-- An event for irene (irene.py:148-152). -/
def toRaw (i : Sources.WfItem (List (List Int)) Unit) : Raw (List (List ℚ)) (List (List Int)) := ⟨i.event, i.timestamp, i.pmt.map fun (r : List Int) => r.map fun (x : Int) => (x : ℚ), i.sipm⟩

end Verif.DiomiraChain
