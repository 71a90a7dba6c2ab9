import Verif.Model.Peaks
import Verif.Model.Voxels
import Mathlib.Data.List.Sort
/-!
# Model of `invisible_cities/detsim/buffer_functions.py`, `detsim/sensor_utils.py`, the event numbering of
`io/rwf_io.py` and `calculate_and_save_buffers` of `cities/components.py`

The response of a sensor plane is a data frame with columns `sensor_id`, `time`, `charge`; waveforms of several
sensors are a `Mat`.  Floats are exact rationals: in particular `np.arange` never yields an element too many.
-/
namespace Verif.Buffers
open Verif.Peaks Verif.Voxels

/-- One row of the sensor response data frame. -/
structure Resp where
  sensor : Nat
  time : ℚ
  charge : ℚ
deriving DecidableEq, Repr

/-- `np.arange(a, b, s)` for a positive step. -/
def arange (a b s : ℚ) : List ℚ := (List.range ⌈(b - a) / s⌉.toNat).map fun i : Nat => a + i * s

/-- `weighted_histogram` (buffer_functions.py:13-14).  `np.histogram` with explicit edges: half-open bins, the last one
closed, entries outside ignored. -/
def weightedHistogram (data : List Resp) (bins : List ℚ) : List ℚ :=
  (List.range (bins.length - 1)).map fun k =>
    ((data.filter fun d => decide (histBin bins d.time = some k)).map (·.charge)).sum

/-- The keys of `sensors.groupby('sensor_id')`: the different ids, sorted (pandas default). -/
def sensorIds (sensors : List Resp) : List Nat := ((sensors.map (·.sensor)).dedup).insertionSort (· ≤ ·)

/-- The bin edges of `bin_sensors` (buffer_functions.py:34-38). -/
def binEdges (w tMin tMax maxBuffer : ℚ) : List ℚ :=
  let maxTime := min tMax (tMin + maxBuffer)
  let minBin := ⌊tMin / w⌋ * w
  let maxBin := ⌈maxTime / w⌉ * w
  arange minBin (maxBin + w) w

/-- `bin_sensors` (buffer_functions.py:17-40): left edges of the bins, sensor ids, one waveform per sensor.
Simplified: positive bin width. -/
def binSensors (sensors : List Resp) (w tMin tMax maxBuffer : ℚ) : List ℚ × List Nat × List (List ℚ) :=
  let bins := binEdges w tMin tMax maxBuffer
  (bins.dropLast, sensorIds sensors,
    (sensorIds sensors).map fun s => weightedHistogram (sensors.filter fun d => d.sensor = s) bins)

/-- `pulse[0]` -/
def first (pulse : List Nat) : Except PyErr Nat :=
  match pulse with
  | [] => .error .indexError
  | a :: _ => .ok a

/-- `find_signal_start` (buffer_functions.py:45-65), with the waveforms given as an array. -/
def findSignalStart (wfs : Mat) (thr : ℚ) (standOff : Nat) : Except PyErr (List Nat) :=
  match indicesAndWfAboveThreshold wfs.sumSensors thr with
  | .error e => .error e
  | .ok (indices, _) => if indices.length = 0 then .ok [] else (splitInPeaks indices standOff).mapM first

/-- `signal_finder` (cities/components.py:404-428): `int` truncates; positive lengths. -/
def signalFinder (bufferLen binWidth thr : ℚ) (wfs : Mat) : Except PyErr (List Nat) :=
  findSignalStart wfs thr ⌊bufferLen / binWidth⌋.toNat

/-- `xs[start:stop]` of a row for a non-negative start; a negative stop counts from the end. -/
def sliceZ (start : Nat) (stop : Int) (xs : List ℚ) : List ℚ :=
  pySlice start (if stop < 0 then (stop + xs.length).toNat else stop.toNat) xs

/-- `np.pad(row, (a, b), "constant")` -/
def npPad (a b : Nat) (row : List ℚ) : List ℚ := List.replicate a 0 ++ row ++ List.replicate b 0

/-- `pad_safe` (buffer_functions.py:68-72): number of columns and rows.  With no rows the number of columns is
`padding[0] + padding[1] + 1`. -/
def padSafe (ncols : Nat) (rows : List (List ℚ)) (a b : Nat) : Mat :=
  if rows = [] then ⟨[], a + b + 1⟩ else ⟨rows.map (npPad a b), a + ncols + b⟩

/-- The slice and padding of one sensor plane in `generate_slice` (buffer_functions.py:118-121 for the PMTs and 123-126
for the SiPMs): `trg` is the trigger bin, `n` the number of bins. -/
def cut (n : Nat) (rows : List (List ℚ)) (trg : Nat) (pre post : Int) : Mat :=
  let start := max 0 ((trg : Int) - pre)
  let stop := min (n : Int) (trg + post)
  let padL := -(min 0 ((trg : Int) - pre))
  let padR := max 0 ((trg : Int) + post - n)
  padSafe ((if stop < 0 then stop + n else stop) - start).toNat (rows.map (sliceZ start.toNat stop)) padL.toNat padR.toNat

/-- Number of samples of a plane in the output buffers (buffer_functions.py:93-94). -/
def bufferSamples (bufferLen w : ℚ) : Int := ⌊bufferLen / w⌋
/-- Number of samples before the trigger (buffer_functions.py:95, 97). -/
def preSamples (preTrigger w : ℚ) : Int := ⌊preTrigger / w⌋

/-- `np.where(sipm_bins <= t)[0][-1]` (buffer_functions.py:113). -/
def lastBinBefore (bins : List ℚ) (t : ℚ) : Except PyErr Nat :=
  match (whereIdx (fun b => decide (b ≤ t)) bins).getLast? with
  | none => .error .indexError
  | some g => .ok g

/-- `generate_slice` (buffer_functions.py:100-129). -/
def generateSlice (bufferLen preTrigger pmtW sipmW : ℚ) (trigger : Nat) (pmtBins : List ℚ) (pmt : List (List ℚ))
    (sipmBins : List ℚ) (sipm : List (List ℚ)) : Except PyErr (Mat × Mat) :=
  match pmtBins[trigger]? with
  | none => .error .indexError
  | some t =>
    match lastBinBefore sipmBins t with
    | .error e => .error e
    | .ok g =>
      let corr := ⌊(t - sipmBins.getD g 0) / pmtW⌋
      let pre := preSamples preTrigger pmtW + corr
      let post := bufferSamples bufferLen pmtW - preSamples preTrigger pmtW - corr
      let spre := preSamples preTrigger sipmW
      let spost := bufferSamples bufferLen sipmW - preSamples preTrigger sipmW
      .ok (cut pmtBins.length pmt trigger pre post, cut sipmBins.length sipm g spre spost)

/-- `position_signal` (buffer_functions.py:132-151). -/
def positionSignal (bufferLen preTrigger pmtW sipmW : ℚ) (triggers : List Nat) (pmtBins : List ℚ) (pmt : List (List ℚ))
    (sipmBins : List ℚ) (sipm : List (List ℚ)) : Except PyErr (List (Mat × Mat)) :=
  triggers.mapM fun trigger => generateSlice bufferLen preTrigger pmtW sipmW trigger pmtBins pmt sipmBins sipm

/-! ### Sensor order -/

/-- Truncation towards zero of the conversion to `int`. -/
def truncZ (q : ℚ) : ℚ := if 0 ≤ q then ⌊q⌋ else ⌈q⌉

/-- Assignment `sensors[pos] = resp` (sensor_utils.py:69), row by row; the array is of integers. -/
def assignRows (sensors : List (List ℚ)) : List Nat → List (List ℚ) → List (List ℚ)
  | p :: ps, r :: rs => assignRows (sensors.set p (r.map truncZ)) ps rs
  | _, _ => sensors

/-- `ordering` (sensor_utils.py:65-70) for one plane, with the positions computed as in `order_and_pad`
(sensor_utils.py:76-77): `db` are the ids of the sensors in the database in order, `ids` the ids of the response, `resp`
its waveforms.  Simplified: a shape mismatch is a `ValueError` (numpy would broadcast a single row). -/
def orderPlane (db ids : List Nat) (resp : List (List ℚ)) (length : Nat) : Except PyErr (List (List ℚ)) :=
  let pos := whereIdx (fun s => decide (s ∈ ids)) db
  if pos.length ≠ resp.length ∨ ∃ r ∈ resp, r.length ≠ length then .error .valueError
  else .ok (assignRows (List.replicate db.length (List.replicate length 0)) pos resp)

/-! ### Event numbers -/

/-- The four tables written by `buffer_writer`, row by row (`Run/events`, `Run/eventMap`, `pmtrd`, `sipmrd`). -/
structure Tables where
  events : List (Nat × Nat × ℚ)
  eventMap : List (Nat × Nat)
  pmtrd : List Mat
  sipmrd : List Mat
deriving DecidableEq, Repr

/-- One iteration of the loop of `write_buffers` (rwf_io.py:156-167). -/
def writeOne (run nexusEvt : Nat) (t : Tables) (number : Nat) (ts : ℚ) (eng trk : Mat) : Tables :=
  ⟨t.events ++ [(run, number, ts)], t.eventMap ++ [(number, nexusEvt)], t.pmtrd ++ [eng], t.sipmrd ++ [trk]⟩

/-- The loop of `write_buffers` from the event number `number` on. -/
def writeLoop (run nexusEvt : Nat) : Tables → Nat → List (ℚ × Mat × Mat) → Tables
  | t, _, [] => t
  | t, number, (ts, eng, trk) :: rest => writeLoop run nexusEvt (writeOne run nexusEvt t number ts eng trk) (number + 1) rest

/-- `write_buffers` (rwf_io.py:139-167) with `ic_event_number_base` (rwf_io.py:69-72). -/
def writeBuffers (run maxSubevt : Nat) (t : Tables) (nexusEvt : Nat) (timestamps : List ℚ) (events : List (Mat × Mat)) : Tables :=
  writeLoop run nexusEvt t (nexusEvt * maxSubevt) (timestamps.zip events)

/-- One event given to the writer: nexus event number, times and buffers of its triggers. -/
structure Evt where
  nexus : Nat
  times : List ℚ
  buffers : List (Mat × Mat)
deriving DecidableEq, Repr

/-- The writer applied to all the events of the input. -/
def writeAll (run maxSubevt : Nat) (evts : List Evt) : Tables :=
  evts.foldl (fun t e => writeBuffers run maxSubevt t e.nexus e.times e.buffers) ⟨[], [], [], []⟩

/-- `max_subevt` (cities/components.py:1412). -/
def maxSubevt (maxTime bufferLength : ℚ) : Nat := ⌈maxTime / bufferLength⌉.toNat

/-- `check_max_time` (cities/components.py:1350-1371); `mus` is the value of one microsecond. -/
def checkMaxTime (mus maxTime bufferLength : ℚ) : Except PyErr ℚ :=
  if maxTime - mus * ⌊maxTime / mus⌋ ≠ 0 then .error .valueError
  else if maxTime < bufferLength then .ok bufferLength
  else .ok maxTime

/-- `trigger_times` (sensor_utils.py:14-37). -/
def triggerTimes (triggers : List Nat) (eventTime : ℚ) (bins : List ℚ) : Except PyErr (List ℚ) :=
  (npTake bins triggers).map fun ts => ts.map (eventTime + ·)

/-- `first_and_last_times` (sensor_utils.py:40-51); non-empty responses. -/
def firstAndLastTimes (pmt sipm : List Resp) (pmtW sipmW : ℚ) : ℚ × ℚ :=
  (min (npMin (pmt.map (·.time))) (npMin (sipm.map (·.time))),
   max (npMax (pmt.map (·.time))) (npMax (sipm.map (·.time))) + min pmtW sipmW)

end Verif.Buffers
