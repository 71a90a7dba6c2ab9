import Verif.Model.KrEvent
import Verif.Model.Peaks
import Verif.Model.Hits
/-!
# Model of `sipms_as_hits` (`cities/components.py`): hits from a PMap

This is the code that `sophronia` runs; the slices are those of the rebinned peaks of `Verif.Model.Peaks`, and the hits of one slice
those of `Verif.Hits.sipmsAboveThreshold`.
-/
namespace Verif.HitBuilder
open Verif.PMaps Verif.Peaks

/-- A row of the dataframe of hits (components.py:1267-1277). -/
structure Row where
  event : Int
  time : ℚ
  npeak : Nat
  xpeak : ℚ
  ypeak : ℚ
  x : ℚ
  y : ℚ
  z : ℚ
  q : ℚ
  e : ℚ
deriving DecidableEq, Repr

/-- What the builder depends on (components.py:1172-1237): drift velocity, rebinning, threshold, positions of the SiPMs,
`sipm_charge_array` with `single_point = True` and `False` (pmaps.py:106-129), and the global reconstruction (the position of the
clusters), the last three arbitrary. -/
structure Builder where
  driftV : ℚ
  rebin : RebinMethod
  qThr : ℚ
  xys : List (ℚ × ℚ)
  pointCharges : Peak → Except PyErr (List ℚ)
  sliceCharges : Peak → Except PyErr (List (List ℚ))
  reco : List (ℚ × ℚ) → List ℚ → Except PyErr (List (ℚ × ℚ))

/-- `sipm_charge_array` for `SiPMCharge.raw` (pmaps.py:109-112). -/
def rawPoint (p : Peak) : Except PyErr (List ℚ) := .ok p.sipms.sumOverTimes
def rawSlices (p : Peak) : Except PyErr (List (List ℚ)) :=
  .ok ((List.range p.sipms.wfs.ncols).map fun j => p.sipms.wfs.rows.map fun r => r.getD j 0)

/-- `get_s1_time` (components.py:1031-1044). -/
def s1Time (f1 f2 : List Bool) (s1s s2s : List Peak) : Except PyErr ℚ :=
  match whereIdx id f1 with
  | i :: _ => match s1s[i]? with
    | some p => p.timeAtMaxEnergy
    | none => .error .indexError
  | [] => match whereIdx id f2 with
    | [] => .error .indexError
    | j :: _ => match s2s[j]? with
      | none => .error .indexError
      | some p => match p.times with
        | [] => .error .indexError
        | t :: _ => .ok t

/-- `try_global_reco` (components.py:1047-1050); an empty list of clusters is an `IndexError`. -/
def globalReco (b : Builder) (xys : List (ℚ × ℚ)) (qs : List ℚ) : Except PyErr (ℚ × ℚ) :=
  match b.reco xys qs with
  | .error e => if KrEvent.isXYRecoFail e then .ok (Hits.NN, Hits.NN) else .error e
  | .ok [] => .error .indexError
  | .ok (c :: _) => .ok c

/-- The rows of one slice (components.py:1266-1278): `xys[qs >= thr]` needs as many charges as positions. -/
def sliceRows (b : Builder) (event : Int) (time : ℚ) (k : Nat) (xyPeak : ℚ × ℚ) (xys : List (ℚ × ℚ)) (z e : ℚ) (qs : List ℚ) :
    Except PyErr (List Row) :=
  if qs.length ≠ xys.length then .error .indexError
  else .ok ((Hits.sipmsAboveThreshold (List.zipWith (fun xy q => (xy.1, xy.2, q)) xys qs) b.qThr e).map fun r =>
    { event := event, time := time, npeak := k, xpeak := xyPeak.1, ypeak := xyPeak.2, x := r.1, y := r.2.1, z := z, q := r.2.2.1,
      e := r.2.2.2 })

/-- The rows of a selected peak (components.py:1250-1278); `zip` of the positions in z, the energies and the charges of the slices. -/
def peakRows (b : Builder) (event : Int) (time s1t : ℚ) (k : Nat) (p : Peak) : Except PyErr (List (List Row)) := do
  let q ← rebinPeak p b.rebin
  let xys ← KrEvent.positions b.xys q.sipms
  let qs ← b.pointCharges q
  let xyPeak ← globalReco b xys qs
  let charges ← b.sliceCharges q
  ((q.times.map fun t => (t - s1t) * 1 * b.driftV).zip (q.pmts.sumOverSensors.zip charges)).mapM fun s =>
    sliceRows b event time k xyPeak xys s.1 s.2.1 s.2.2

/-- The loop over the peaks (components.py:1246-1278): the dataframes appended to `hits`, in order. -/
def peaksRows (b : Builder) (event : Int) (time s1t : ℚ) : List ((Bool × Peak) × Nat) → Except PyErr (List (List Row))
  | [] => .ok []
  | ((passed, p), k) :: rest =>
    if !passed then peaksRows b event time s1t rest
    else match peakRows b event time s1t k p with
      | .error e => .error e
      | .ok a => match peaksRows b event time s1t rest with
        | .error e => .error e
        | .ok c => .ok (a ++ c)

/-- `astype(dict(npeak=np.uint16))` (components.py:1281). -/
def castPeak (r : Row) : Row := { r with npeak := r.npeak % 65536 }

/-- `build_hits` of `sipms_as_hits` (components.py:1239-1282); `pd.concat([])` is a `ValueError`. -/
def build (b : Builder) (f1 f2 : List Bool) (s1s s2s : List Peak) (event : Int) (timestamp : ℚ) : Except PyErr (List Row) :=
  match s1Time f1 f2 s1s s2s with
  | .error e => .error e
  | .ok s1t => match peaksRows b event (timestamp * (1 / 1000)) s1t (f2.zip s2s).zipIdx with
    | .error e => .error e
    | .ok [] => .error .valueError
    | .ok hits => .ok (hits.flatten.map castPeak)

end Verif.HitBuilder
