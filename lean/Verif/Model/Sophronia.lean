import Verif.Model.Filters
import Verif.Model.HitBuilder
import Verif.Model.KrApply
import Verif.Model.Clusters
/-!
# Model of what sophronia does with an event (`invisible_cities/cities/sophronia.py`, `cities/components.py`)

The stages of the city put together: selection of peaks, point-like event, hits, merge of the NN hits, corrections and clusters.  The accounting of events in a run is in `Model/Cities`.
-/
namespace Verif.Sophronia
open Verif.PMaps Verif.Peaks

/-- The arguments of `hits_corrector` (components.py:1740-1745), with the map already read.  `pick`: search of the nearest bin (`griddata`), `dvs`: drift velocities of the map. -/
structure Corr where
  pick : List (ℚ × ℚ × ℚ) → ℚ × ℚ × ℚ → Nat
  keV : ℚ
  mev : ℚ
  krmap : List KrApply.Bin
  dvs : List ℚ
  applyTemp : Bool
  method : KrApply.Method
  xy : Option KrApply.Region
  applyZ : Bool

/-- The arguments of `hits_clusterizer` (components.py:1780-1783). -/
structure ClusterPars where
  minSamples : Int
  scaleXY : ℚ
  scaleZ : ℚ

/-- The parameters of the city (sophronia.py:82-102).  `kr`: drift velocity, positions of the SiPMs, charge of the SiPMs of a peak and global reconstruction, the same for the point-like event
(sophronia.py:200-206) and for the hits (sophronia.py:169-178); `slices`: charges of the SiPMs in each slice. -/
structure Cfg where
  selector : Filters.Selector
  kr : KrEvent.Builder
  rebin : RebinMethod
  qThr : ℚ
  slices : Peak → Except PyErr (List (List ℚ))
  samePeak : Bool
  corrections : Option Corr
  clustering : Option ClusterPars

/-- The builder of hits (sophronia.py:169-178): the global reconstruction gives the position of each cluster (components.py:1047-1050). -/
def Cfg.builder (c : Cfg) : HitBuilder.Builder :=
  ⟨c.kr.driftV, c.rebin, c.qThr, c.kr.xys, c.kr.charges, c.slices, fun xys qs => match c.kr.reco xys qs with
    | .error e => .error e
    | .ok cs => .ok (cs.map fun k => (k.x, k.y))⟩

/-- A row of /RECO/Events: the columns of the hit; `ec`: the column `Ec`, if the table has it (NaN: `some none`), and `cluster`, if the table has it. -/
structure OutHit where
  event : Int
  time : ℚ
  npeak : Nat
  xpeak : ℚ
  ypeak : ℚ
  x : ℚ
  y : ℚ
  z : ℚ
  q : ℚ
  e : Hits.Fl
  ec : Option Hits.Fl
  cluster : Option Int
deriving DecidableEq, Repr

/-- `count_valid_hits` (sophronia.py:76-78). -/
def countValid (rows : List HitBuilder.Row) : Nat := rows.countP fun r => decide (r.q ≠ Hits.NN)

/-- The row as `merge_NN_hits` sees it; the label in the index (components.py:1280) stands for the columns that it does not read. -/
def toHit (p : HitBuilder.Row × Nat) : Hits.Hit := ⟨p.2, p.1.npeak, p.1.x, p.1.y, p.1.z, p.1.q, some p.1.e, none, none⟩

/-- A row with the energy it has after the merge. -/
def ofRow (r : HitBuilder.Row) (e : Hits.Fl) : OutHit := ⟨r.event, r.time, r.npeak, r.xpeak, r.ypeak, r.x, r.y, r.z, r.q, e, none, none⟩

/-- `merge_nn_hits` (sophronia.py:188-189, components.py:1709-1710): the table has no column `Ec`. -/
def merge (samePeak : Bool) (rows : List HitBuilder.Row) : List OutHit :=
  (Hits.mergeNN samePeak false (rows.zipIdx.map toHit)).filterMap fun h => (rows[h.info]?).map fun r => ofRow r h.e

/-- The columns seen by the corrector. -/
def toRow (h : OutHit) : KrApply.HitRow := ⟨h.x, h.y, h.z, h.e.getD 0, none⟩

/-- The hit with the columns written by the corrector; if `E` is NaN, so is `Ec`. -/
def withRow (h : OutHit) (r : KrApply.HitRow) : OutHit :=
  ⟨h.event, h.time, h.npeak, h.xpeak, h.ypeak, h.x, h.y, r.z, h.q, h.e, some (h.e.bind fun _ => r.ec), h.cluster⟩

/-- `correct_hits` (sophronia.py:191-192). -/
def correct (k : Option Corr) (hits : List OutHit) : Except PyErr (List OutHit) :=
  match k with
  | none => .ok hits
  | some k => match (KrApply.correctHits k.pick k.keV k.mev k.krmap k.dvs k.applyTemp k.method k.xy k.applyZ (hits.map toRow)).2 with
    | .error e => .error e
    | .ok rows => .ok (List.zipWith withRow hits rows)

/-- The hit as `cluster_tagger` sees it, with its label in the index. -/
def toCluster (h : OutHit) : OutHit × Clusters.Hit Unit := (h, ⟨h.event, h.x, h.y, h.z, ()⟩)

/-- The hit with its cluster. -/
def withCluster (h : OutHit) (l : Int) : OutHit := ⟨h.event, h.time, h.npeak, h.xpeak, h.ypeak, h.x, h.y, h.z, h.q, h.e, h.ec, some l⟩

/-- `cluster_hits` (sophronia.py:194-195). -/
def cluster (p : Option ClusterPars) (hits : List OutHit) : Except PyErr (List OutHit) :=
  match p with
  | none => .ok hits
  | some p => match Clusters.clusterTagger p.minSamples p.scaleXY p.scaleZ (hits.map toCluster) with
    | .error e => .error e
    | .ok rows => .ok (rows.map fun r => withCluster r.1 r.2.2)

/-- What is written for an event: the flag of the selection, the rows of /DST/Events, the flag `enough_valid_hits` (`none`: no row) and the rows of /RECO/Events. -/
structure Written where
  passed : Bool
  kdst : List KrEvent.Row
  validHits : Option Bool
  hits : List OutHit

/-- The branch of the hits (sophronia.py:219-220). -/
def hitsBranch (c : Cfg) (f1 f2 : List Bool) (s1s s2s : List Peak) (event : Int) (ts : ℚ) : Except PyErr (Bool × List OutHit) :=
  match HitBuilder.build c.builder f1 f2 s1s s2s event ts with
  | .error e => .error e
  | .ok rows =>
    if countValid rows = 0 then .ok (false, [])
    else match correct c.corrections (merge c.samePeak rows) with
      | .error e => .error e
      | .ok hits => match cluster c.clustering hits with
        | .error e => .error e
        | .ok hits => .ok (true, hits)

/-- The branch of the point-like event (sophronia.py:221). -/
def kdstBranch (c : Cfg) (f1 f2 : List Bool) (s1s s2s : List Peak) (event : Int) (ts : ℚ) : Except PyErr (List KrEvent.Row) :=
  match KrEvent.build c.kr f1 f2 s1s s2s event ts with
  | .error e => .error e
  | .ok ev => match KrEvent.store ev with
    | (_, some e) => .error e
    | (rows, none) => .ok rows

/-- An event in sophronia (sophronia.py:224-242): the branches are run in order, and an exception ends the run. -/
def sophroniaEvent (c : Cfg) (s1s s2s : List Peak) (event : Int) (ts : ℚ) : Except PyErr Written :=
  match Filters.pmapFilter c.selector s1s s2s with
  | .error e => .error e
  | .ok sel =>
    if !sel.passed then .ok ⟨false, [], none, []⟩
    else match kdstBranch c sel.s1Peaks sel.s2Peaks s1s s2s event ts with
      | .error e => .error e
      | .ok kdst => match hitsBranch c sel.s1Peaks sel.s2Peaks s1s s2s event ts with
        | .error e => .error e
        | .ok (valid, hits) => .ok ⟨true, kdst, some valid, hits⟩

/-! ### The arguments of `sipms_as_hits` -/

/-- A value for `rebin_method` or `rebin_slices`. -/
inductive RebinArg where
  | method (threshold : Bool)
  | number (x : ℚ)
deriving DecidableEq, Repr

/-- `rebin_peak(peak, rebin_factor, model)` (pmaps_functions.py:41-70) for arguments of any of the two kinds: comparing a member of the enumeration with a number raises (with two
members of the enumeration the comparison may not be reached; not modelled).  A stride that is not an integer is not modelled (any error). -/
def rebinPeakArgs (p : Peak) (factor model : RebinArg) : Except PyErr Peak :=
  match factor, model with
  | .method _, _ => .error .typeError
  | .number x, .method true => rebinPeak p (.threshold x)
  | .number x, _ => if x ≤ 1 then .ok p else if x.den = 1 then rebinPeak p (.stride x.num.toNat) else .error (.other "stride")

/-- `pmf.rebin_peak(peak, rebin_method, rebin_slices)` in `sipms_as_hits` (components.py:1172-1179, 1250): the second parameter of `rebin_peak` is the factor and the third one is the method. -/
def rebinInBuilder (rebin_method rebin_slices : RebinArg) (p : Peak) : Except PyErr Peak := rebinPeakArgs p rebin_method rebin_slices

/-- The call of sophronia (sophronia.py:169-176), by position: `rebin` goes to `rebin_method` and `rebin_method` to `rebin_slices`. -/
def rebinInSophronia (rebin rebin_method : RebinArg) (p : Peak) : Except PyErr Peak := rebinInBuilder rebin rebin_method p

end Verif.Sophronia
