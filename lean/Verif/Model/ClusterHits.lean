import Verif.Model.HitBuilder
import Verif.Model.XY
/-!
# Model of `hit_builder` (`cities/components.py`): hits from the clusters of each slice
-/
namespace Verif.ClusterHits
open Verif.PMaps Verif.Peaks Verif.HitBuilder

/-- A `Hit` (evm/event_model.py:157-172): what it takes from the cluster (evm/event_model.py:112-124), and the rest. -/
structure CHit where
  npeak : Nat
  x : ℚ
  y : ℚ
  vx : ℚ
  vy : ℚ
  nsipm : Nat
  q : ℚ
  z : ℚ
  e : ℚ
  xpeak : ℚ
  ypeak : ℚ
deriving DecidableEq, Repr

/-- `Hit(peak_no, cluster, z, energy, xy_peak)` (evm/event_model.py:159-172): the energy is that given, or the charge if it is NN (evm/event_model.py:115-118). -/
def newHit (k : Nat) (c : XY.Cluster) (z e : ℚ) (pos : ℚ × ℚ) : CHit :=
  ⟨k, c.x, c.y, c.vx, c.vy, c.nsipm, c.q, z, if e = Hits.NN then c.q else e, pos.1, pos.2⟩

/-- `Cluster.empty()` (evm/event_model.py:126-127). -/
def emptyCluster : XY.Cluster := ⟨Hits.NN, Hits.NN, Hits.NN, 0, 0, 0⟩

/-- The reconstruction of a slice, `slice_reco`. -/
abbrev Reco := List (ℚ × ℚ) → List ℚ → Except PyErr (List XY.Cluster)

/-- The hits of a slice (components.py:1156-1166). -/
def sliceHits (reco : Reco) (k : Nat) (pos : ℚ × ℚ) (xys : List (ℚ × ℚ)) (z e : ℚ) (qs : List ℚ) : Except PyErr (List CHit) :=
  match reco xys qs with
  | .error err => if KrEvent.isXYRecoFail err then .ok [newHit k emptyCluster z e pos] else .error err
  | .ok clusters => .ok (List.zipWith (fun c en => newHit k c z en pos) clusters (Hits.eFromQ (clusters.map XY.Cluster.q) e))

/-- The hits of a selected peak (components.py:1141-1166): one list per slice. -/
def peakHits (b : Builder) (reco : Reco) (s1t : ℚ) (k : Nat) (p : Peak) : Except PyErr (List (List CHit)) :=
  match rebinPeak p b.rebin with
  | .error e => .error e
  | .ok q => match KrEvent.positions b.xys q.sipms with
    | .error e => .error e
    | .ok xys => match b.pointCharges q with
      | .error e => .error e
      | .ok qs => match globalReco b xys qs with
        | .error e => .error e
        | .ok pos => match b.sliceCharges q with
          | .error e => .error e
          | .ok charges => ((q.times.map fun t => (t - s1t) * 1 * b.driftV).zip (q.pmts.sumOverSensors.zip charges)).mapM fun s =>
              sliceHits reco k pos xys s.1 s.2.1 s.2.2

/-- The loop over the peaks (components.py:1137-1166). -/
def peaksHits (b : Builder) (reco : Reco) (s1t : ℚ) : List ((Bool × Peak) × Nat) → Except PyErr (List (List CHit))
  | [] => .ok []
  | ((passed, p), k) :: rest =>
    if !passed then peaksHits b reco s1t rest
    else match peakHits b reco s1t k p with
      | .error e => .error e
      | .ok a => match peaksHits b reco s1t rest with
        | .error e => .error e
        | .ok c => .ok (a ++ c)

/-- A `HitCollection` (components.py:1130): event, time and hits. -/
structure Collection where
  event : Int
  time : ℚ
  hits : List CHit
deriving DecidableEq, Repr

/-- `build_hits` of `hit_builder` (components.py:1125-1168). -/
def build (b : Builder) (reco : Reco) (f1 f2 : List Bool) (s1s s2s : List Peak) (event : Int) (timestamp : ℚ) : Except PyErr Collection :=
  match s1Time f1 f2 s1s s2s with
  | .error e => .error e
  | .ok s1t => match peaksHits b reco s1t (f2.zip s2s).zipIdx with
    | .error e => .error e
    | .ok hits => .ok ⟨event, timestamp * (1 / 1000), hits.flatten⟩

/-- The barycenter as `slice_reco` (xy_algorithms.py:56-85): positions and charges of the SiPMs. -/
def baryReco (qthr : ℚ) : Reco := fun xys qs => XY.barycenter (List.zipWith (fun (p : ℚ × ℚ) (q : ℚ) => ⟨p.1, p.2, q⟩) xys qs) qthr

end Verif.ClusterHits
