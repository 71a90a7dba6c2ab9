import Verif.Model.Sophronia
import Verif.Model.Beersheba
import Verif.Model.Sources
/-!
# Model of the files that sophronia leaves for esmeralda and beersheba

What sophronia writes for each event (`Model/Sophronia`) put in the tables of its output file, and those tables as esmeralda and beersheba read them (`Model/Sources`).
-/
namespace Verif.Chain
open Verif.Sophronia (OutHit Written)
open Verif.PMaps (Peak)

/-- An event at the entrance of sophronia: an item of `pmap_from_files` (components.py:612-613) that is in the range of events. -/
structure Input where
  event : Int
  ts : ℚ
  s1s : List Peak
  s2s : List Peak

/-- The loop of sophronia over the events (sophronia.py:224-242): an exception ends the run. -/
def sophroniaRun (c : Sophronia.Cfg) (ins : List Input) : Except PyErr (List Written) := ins.mapM fun i => Sophronia.sophroniaEvent c i.s1s i.s2s i.event i.ts

/-- The rows of the events that pass the selection, written by `run_and_event_writer` (sophronia.py:211-212, 242; run_and_event_io.py:23-41). -/
def eventRows (ins : List Input) (ws : List Written) : List (Int × ℚ) := ((ins.zip ws).filter fun p => p.2.passed).map fun p => (p.1.event, p.1.ts)

/-- The output file: /Run/runInfo and /Run/events, /DST/Events (created with the writer, kdst_io.py:7-18) and /RECO/Events (created by `hits_writer` with the first event that reaches it, sophronia.py:209-210, 219-220). -/
def sophroniaFile (run : Int) (ins : List Input) (ws : List Written) : Sources.HitsFile OutHit KrEvent.Row :=
  ⟨some ⟨some (List.replicate (eventRows ins ws).length run), none, some (eventRows ins ws)⟩,
    if ws.any fun w => w.validHits == some true then some (ws.flatMap fun w => w.hits) else none,
    some (ws.flatMap fun w => w.kdst)⟩

/-- The events of the files as esmeralda (esmeralda.py:175) and beersheba (beersheba.py:530) get them. -/
def nextSource (files : List (Sources.HitsFile OutHit KrEvent.Row)) : Sources.Gen (Sources.HitsItem OutHit KrEvent.Row) :=
  Sources.hitsAndKdstFromFiles OutHit.event KrEvent.Row.event files

/-- The hits of an event for the next city.  `info` is the position of the row.  Simplification: an energy that is not a number is 0 (the theorems are about energies that are numbers). -/
def nextHits (hits : List OutHit) : List Esmeralda.InHit := hits.zipIdx.map fun p => ⟨p.2, p.1.npeak, p.1.x, p.1.y, p.1.z, p.1.q, p.1.e.getD 0⟩

end Verif.Chain
