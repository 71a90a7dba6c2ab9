import Verif.Model.Hits
import Verif.Model.KrApply
import Verif.Model.Paolina
/-!
# Model of what esmeralda does with an event (`invisible_cities/cities/esmeralda.py`, `cities/components.py`)

The stages of the city put together: correction of the hits, fiducial cut, threshold, topology and tables written.  The accounting of events in a run is in `Model/Cities`.
-/
namespace Verif.Esmeralda
open Verif.Paolina (OutHit EHit SHit TrackRow Summary Outcome)

/-- A row of /RECO/Events.  `info`: the other columns (event, time, Xpeak, Ypeak, ...). -/
structure InHit where
  info : Nat
  npeak : Nat
  x : ℚ
  y : ℚ
  z : ℚ
  q : ℚ
  e : ℚ
deriving DecidableEq, Repr

/-- The parameters of the city (esmeralda.py:68-82). `pick`: search of the nearest bin (`griddata`), `dvs`: drift velocities of the map. -/
structure Cfg where
  pick : List (ℚ × ℚ × ℚ) → ℚ × ℚ × ℚ → Nat
  keV : ℚ
  mev : ℚ
  krmap : List KrApply.Bin
  dvs : List ℚ
  applyTemp : Bool
  method : KrApply.Method
  xy : Option KrApply.Region
  applyZ : Bool
  fiducialR : ℚ
  threshold : ℚ
  samePeak : Bool
  paolina : Paolina.Params

/-- The columns seen by the corrector. -/
def toRow (h : InHit) : KrApply.HitRow := ⟨h.x, h.y, h.z, h.e, none⟩

/-- The hit with the columns written by the corrector. -/
def withRow (h : InHit) (r : KrApply.HitRow) : Hits.Hit := ⟨h.info, h.npeak, r.x, r.y, r.z, h.q, some r.e, r.ec, none⟩

/-- `correct_hits` (esmeralda.py:148-149; components.py:1761-1776). -/
def correct (c : Cfg) (hits : List InHit) : Except PyErr (List Hits.Hit) :=
  match (KrApply.correctHits c.pick c.keV c.mev c.krmap c.dvs c.applyTemp c.method c.xy c.applyZ (hits.map toRow)).2 with
  | .error e => .error e
  | .ok rows => .ok (List.zipWith withRow hits rows)

/-- `hit_dropper` (esmeralda.py:60-66). -/
def dropHits (radius : ℚ) (hits : List Hits.Hit) : List Hits.Hit := hits.filter fun h => decide (h.x ^ 2 + h.y ^ 2 < radius ^ 2)

/-- The hits that reach the topology: corrected, inside the fiducial radius and over the threshold (esmeralda.py:150-151, 179-181). -/
def select (c : Cfg) (hits : List InHit) : Except PyErr (List Hits.Hit) :=
  match correct c hits with
  | .error e => .error e
  | .ok hs => Hits.hitsThresholder c.threshold c.samePeak (dropHits c.fiducialR hs)

/-- `copy_Efield` with `HitEnergy.Ec` (components.py:1438-1442, 1652-1654): `Ep` is `Ec`.  The tag stands for the rest of the row. -/
def epHits (hs : List Hits.Hit) : List EHit := hs.zipIdx.map fun p => ⟨p.1.x, p.1.y, p.1.z, p.1.ec, p.2⟩

/-- A row of /CHITS/highTh. -/
structure OutRow where
  info : Nat
  npeak : Nat
  x : ℚ
  y : ℚ
  z : ℚ
  q : ℚ
  e : Hits.Fl
  ec : Hits.Fl
  ep : Option ℚ
  track : Int
deriving DecidableEq, Repr

/-- The row of a hit after the topology: position (rounded), `Ep` and `track_id` of the topology, the other columns as they were. -/
def outRow (hs : List Hits.Hit) (o : OutHit) : Option OutRow :=
  (hs[o.hit.tag]?).map fun h => ⟨h.info, h.npeak, o.hit.x, o.hit.y, o.hit.z, h.q, h.e, h.ec, o.hit.ep, o.track⟩

/-- The hit as `make_event_summary` sees it (components.py:1446-1494). -/
def sHit (r : OutRow) : SHit := ⟨r.x, r.y, r.z, r.ec⟩

/-- What is written for an event: the flags of the two filters (`none`: no row), the summary, the hits and the tracks. -/
structure Written where
  hitsPassed : Bool
  topologyPassed : Option Bool
  summary : List Summary
  hits : List OutRow
  tracks : List TrackRow
deriving DecidableEq, Repr

/-- How the processing of an event ends. -/
inductive Result where
  | ok (w : Written)
  | raises (e : PyErr)
  | neverEnds
deriving DecidableEq, Repr

/-- The tables of an event with hits, after the topology (components.py:1662-1704). -/
def writeTopology (c : Cfg) (event : Int) (hs : List Hits.Hit) (rows : List TrackRow) (outs : List OutHit) (oom : Bool) : Result :=
  match Paolina.eventSummary c.paolina.rad event rows.length (((Paolina.sortHits outs).filterMap (outRow hs)).map sHit) oom with
  | .error e => .raises e
  | .ok s => .ok ⟨true, some (!rows.isEmpty), s, (Paolina.sortHits outs).filterMap (outRow hs), rows⟩

/-- `compute_and_write_tracks_info` (components.py:1641-1704) on the selected hits of an event. -/
def topology (c : Cfg) (event : Int) (hs : List Hits.Hit) : Result :=
  if hs.isEmpty then .ok ⟨false, none, [], [], []⟩
  else match Paolina.extract c.paolina event (epHits hs) with
    | .raises e => .raises e
    | .neverEnds => .neverEnds
    | .returns rows outs oom => writeTopology c event hs rows outs oom

/-- An event in esmeralda (esmeralda.py:175-186). -/
def esmeraldaEvent (c : Cfg) (event : Int) (hits : List InHit) : Result :=
  match select c hits with
  | .error e => .raises e
  | .ok hs => topology c event hs

end Verif.Esmeralda
