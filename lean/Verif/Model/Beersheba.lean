import Verif.Model.Esmeralda
import Verif.Model.DeconvSlice
/-!
# Model of what beersheba does with an event (`invisible_cities/cities/beersheba.py`)

The stages of the city put together: correction of the hits, threshold, cut in charge, isolated sensors, deconvolution and tables written.  The accounting of events in a run is in `Model/Cities`.
-/
namespace Verif.Beersheba
open Verif.Esmeralda (InHit)

/-- The parameters of the city (beersheba.py:385-397): those of the corrections and of the threshold (as in esmeralda), `q_cut`, `drop_dist` and `cluster_size`, and those of the deconvolution; `grid`: the points of the detector, `column`: 0 if the
energy to share is `E` and 1 if it is `Ec`; `iter`: order of a Python set. -/
structure Cfg where
  pick : List (ℚ × ℚ × ℚ) → ℚ × ℚ × ℚ → Nat
  keV : ℚ
  mev : ℚ
  krmap : List KrApply.Bin
  dvs : List ℚ
  applyTemp : Bool
  method : KrApply.Method
  xy : Option KrApply.Region
  applyZ : Bool
  threshold : ℚ
  samePeak : Bool
  qCut : ℚ
  distance : List ℚ
  clusterSize : Option Int
  iter : List Int → List Int
  deconv : DeconvSlice.Conf
  grid : List (List ℚ)
  column : Nat

/-- The hits after `correct_hits` and `threshold_hits` (beersheba.py:489-490, 534-535), which are written in /CHITS/lowTh (536). -/
def lowThreshold (c : Cfg) (hits : List InHit) : Except PyErr (List Hits.Hit) :=
  match (KrApply.correctHits c.pick c.keV c.mev c.krmap c.dvs c.applyTemp c.method c.xy c.applyZ (hits.map Esmeralda.toRow)).2 with
  | .error e => .error e
  | .ok rows => Hits.hitsThresholder c.threshold c.samePeak (List.zipWith Esmeralda.withRow hits rows)

/-- The row of a hit as the cuts see it; `event` and `time` are the same for all the hits of an event. -/
def toRow (event : Int) (time : ℚ) (h : Hits.Hit) : Deconv.Row := ⟨0, event, time, h.npeak, h.x, h.y, h.z, h.q, [h.e, h.ec]⟩

/-- `cut_sensors` and `drop_sensors` (beersheba.py:501-504, 537-538). -/
def sensors (c : Cfg) (event : Int) (time : ℚ) (hs : List Hits.Hit) : Except PyErr (List Deconv.Row) :=
  match Deconv.cutOverQ c.qCut (hs.map (toRow event time)) with
  | .error e => .error e
  | .ok rows => Deconv.dropIsolated c.iter c.distance c.clusterSize rows

/-- The hits for the deconvolution.  Simplification: `Xpeak` and `Ypeak` are a function of the peak (in the tables of sophronia all the hits of a peak have the same). -/
def toDeconv (xyPeak : Int → ℚ × ℚ) (r : Deconv.Row) : DeconvSlice.Hit := ⟨r, (xyPeak r.npeak).1, (xyPeak r.npeak).2⟩

/-- What is written for an event: /CHITS/lowTh, the flag of the filter `nohits` and /DECO/Events. -/
structure Written where
  lowTh : List Hits.Hit
  passed : Bool
  deco : List DeconvSlice.OutHit

/-- An event in beersheba (beersheba.py:531-549).  Simplification: if a later stage fails, what was written before is not kept. -/
def beershebaEvent (c : Cfg) (event : Int) (time timestamp : ℚ) (xyPeak : Int → ℚ × ℚ) (hits : List InHit) : Except PyErr Written :=
  match lowThreshold c hits with
  | .error e => .error e
  | .ok hs => match sensors c event time hs with
    | .error e => .error e
    | .ok rows =>
      if rows.length = 0 then .ok ⟨hs, false, []⟩
      else match DeconvSlice.event c.deconv c.grid c.column timestamp (rows.map (toDeconv xyPeak)) with
        | .error e => .error e
        | .ok deco => .ok ⟨hs, true, deco⟩

end Verif.Beersheba
