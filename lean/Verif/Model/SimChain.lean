import Verif.Model.BuffyEvent
import Verif.Model.DetsimEvent
import Verif.Model.IreneRun
import Verif.Model.WfIO
import Verif.Model.Sources
/-!
# Model of the files that buffy and detsim leave for diomira and hypathia

The tables of the simulated buffers (`Model/Buffers`) with the types of the columns of the file, and those tables as the next city reads them (`Model/Sources`).
-/
namespace Verif.SimChain
open Verif.Buffers (Tables)
open Verif.IreneRun (Raw)

/-- The samples of a buffer in the array of 16 bits of the file (rwf_io.py:53-65, 117-129). -/
def stored (m : Mat) : Mat := ⟨m.rows.map fun r => r.map fun x => ((WfIO.convert 16 x : Int) : ℚ), m.ncols⟩

/-- A time in the column `timestamp`, of unsigned integers of 64 bits (nh5.py:15).  Simplification: times that are not in the range of the column are not modelled. -/
def storedTime (t : ℚ) : ℚ := WfIO.truncate t

/-- The file: /Run/runInfo and /Run/events (run_and_event_io.py:23-41), /pmtrd and /sipmrd at the root (rwf_io.py:117-129, components.py:1413-1421), without group `Trigger`. -/
def simFile (t : Tables) : Sources.WfFile Mat Unit :=
  ⟨some ⟨some (t.events.map fun e => (e.1 : Int)), none, some (t.events.map fun e => ((e.2.1 : Int), storedTime e.2.2))⟩, none, none,
    some (t.pmtrd.map stored), some (t.sipmrd.map stored), none, none⟩

/-- The events of the files as diomira (diomira.py:137) and hypathia (hypathia.py:149) get them. -/
def nextSource (ts : List Tables) : Sources.Gen (Sources.WfItem Mat Unit) := Sources.wfFromFiles .mcrd (ts.map simFile)

/-- An event for hypathia (hypathia.py:149-154). -/
def toRaw (i : Sources.WfItem Mat Unit) : Raw Mat (List (List ℚ)) := ⟨i.event, i.timestamp, i.pmt, i.sipm.rows⟩

end Verif.SimChain
