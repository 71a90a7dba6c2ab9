import Verif.Model.Voxels
import Verif.Model.Wfm
/-!
# Model of `calib/calib_functions.py` (integration windows, histograms) and `calib/calib_sensors_functions.py` (calibration of waveforms)

Not modelled: the fits and seeds of `calib_functions.py` (141-310), `copy_sensor_table` (127-138), `scipy_mode`.
-/
namespace Verif.Calib

/-! ### Integration windows -/

/-- `np.add.reduceat(wf, limits)` for limits inside the waveform: element `i` is the sum of `wf[limits[i]:limits[i+1]]` if
`limits[i] < limits[i+1]` and `wf[limits[i]]` otherwise; the last one is the sum of `wf[limits[-1]:]`. -/
def reduceat (wf : List ℚ) : List Nat → List ℚ
  | [] => []
  | [a] => [(wf.drop a).sum]
  | a :: b :: rest => (if a < b then (pySlice a b wf).sum else wf.getD a 0) :: reduceat wf (b :: rest)

/-- `spaced_integrals` (calib_functions.py:30-52); `min` of an empty array is a `ValueError`. -/
def spacedIntegrals (wfs : Mat) (limits : List Int) : Except PyErr (List (List ℚ)) :=
  if limits.isEmpty then .error .valueError
  else if limits.any (fun l => decide (l < 0)) || limits.any (fun l => decide ((wfs.ncols : Int) ≤ l)) then .error .valueError
  else .ok (wfs.rows.map fun wf => reduceat wf (limits.map Int.toNat))

/-- `xs[::2]`. -/
def evens {α : Type} : List α → List α
  | [] => []
  | [a] => [a]
  | a :: _ :: rest => a :: evens rest

/-- `waveform_integrator` (components.py:1293-1296). -/
def integrate (limits : List Int) (wfs : Mat) : Except PyErr (List (List ℚ)) :=
  match spacedIntegrals wfs limits with
  | .error e => .error e
  | .ok rows => .ok (rows.map evens)

/-- The windows in samples (calib_functions.py:79-82): first sample, width, period, and the two microseconds of line 86. -/
structure Windows where
  first : Int
  width : Int
  period : Int
  gap : Int
deriving DecidableEq

/-- Lines 79-81 and 86 of `integral_limits`; the microsecond is 1000 units. -/
def windowsOf (sampleWidth start width period : ℚ) : Windows :=
  ⟨⌊start * 1000 / sampleWidth⌋, ⌈width * 1000 / sampleWidth⌉, ⌈period * 1000 / sampleWidth⌉, ⌊2 * 1000 / sampleWidth⌋⟩

/-- The correlated limits (calib_functions.py:84-85). -/
def corrLimits (w : Windows) (n : Nat) : List Int :=
  (List.range n).flatMap fun k : Nat => [w.first + k * w.period, w.first + w.width + k * w.period]

/-- The anticorrelated limits (calib_functions.py:86). -/
def antiLimits (w : Windows) (n : Nat) : List Int := (corrLimits w n).map fun l => l - w.width - w.gap

/-- `mask[i] = False` for a position counted from the start or, if negative, from the end; out of range: `IndexError`. -/
def setFalse (mask : List Bool) (i : Int) : Except PyErr (List Bool) :=
  if 0 ≤ i ∧ i < mask.length then .ok (mask.set i.toNat false)
  else if i < 0 ∧ 0 ≤ mask.length + i then .ok (mask.set (mask.length + i).toNat false)
  else .error .indexError

/-- `xs[mask]`. -/
def applyMask {α : Type} (xs : List α) (mask : List Bool) : List α := ((xs.zip mask).filter fun x => x.2).map Prod.fst

/-- `filter_limits` (calib_functions.py:91-118). -/
def filterLimits (limits : List Int) (bufferLength : Nat) : Except PyErr (List Int) :=
  (fun (mask : List Bool) =>
    (fun (nFirst nSecond : Nat) =>
      match (if nFirst % 2 = 1 then setFalse mask nFirst else .ok mask) with
      | .error e => .error e
      | .ok mask => match (if nSecond % 2 = 1 then setFalse mask (-(nSecond : Int) - 1) else .ok mask) with
        | .error e => .error e
        | .ok mask => .ok (applyMask limits mask))
      ((mask.take (limits.length / 2)).countP (fun b => !b)) ((mask.drop (limits.length / 2)).countP (fun b => !b)))
    (limits.map fun l => decide (0 ≤ l ∧ l < (bufferLength : Int) + 1))

/-- `valid_integral_limits` (calib_functions.py:121-124). -/
def validLimits (w : Windows) (n bufferLength : Nat) : Except PyErr (List Int × List Int) :=
  match filterLimits (corrLimits w n) bufferLength, filterLimits (antiLimits w n) bufferLength with
  | .error e, _ => .error e
  | _, .error e => .error e
  | .ok a, .ok b => .ok (a, b)

/-- `bin_waveforms` (calib_functions.py:20-27): one histogram per sensor. -/
def binWaveforms (bins : List ℚ) (wfs : List (List ℚ)) : List (List Nat) :=
  wfs.map fun wf => (List.range (bins.length - 1)).map fun k => wf.countP fun x => Voxels.histBin bins x == some k

/-- `sum_histograms` (phyllis.py:112): the sum over events of the arrays of histograms. -/
def sumHistograms (nsensors nbins : Nat) (events : List (List (List Nat))) : List (List Nat) :=
  events.foldl (fun acc h => List.zipWith (List.zipWith (· + ·)) acc h) (List.replicate nsensors (List.replicate nbins 0))

/-! ### Calibration of waveforms -/

/-- `BlsMode` (types/symbols.py), without `scipymode`. -/
inductive BlsMode where
  | mean | median | mode
deriving DecidableEq

/-- `zero_masked(np.ma.mean)` (calib_sensors_functions.py:38-55): the average of the samples that are not zero; zero if there is none. -/
def zmean (wf : List ℚ) : ℚ :=
  if (wf.filter (· ≠ 0)).isEmpty then 0 else (wf.filter (· ≠ 0)).sum / (wf.filter (· ≠ 0)).length

/-- The value with the most repetitions in the list `vs` of candidates, the first one in case of ties. -/
def mostFrequent (wf : List Int) : List Nat → Nat
  | [] => 0
  | [v] => v
  | v :: vs => if wf.count (mostFrequent wf vs : Int) ≤ wf.count (v : Int) then v else mostFrequent wf vs

/-- `wf_mode` (calib_sensors_functions.py:32-34): `np.bincount(...).argmax()` over the values 0, ..., max, the bin of zero being empty. -/
def wfMode (wf : List Int) : Nat :=
  if (wf.filter (0 < ·)).isEmpty then 0
  else mostFrequent (wf.filter (0 < ·)) (List.range (((wf.filter (0 < ·)).foldl max 0).toNat + 1))

/-- `zero_masked(np.ma.median)` (calib_sensors_functions.py:38-52). -/
def zmedian (wf : List ℚ) : ℚ := if (wf.filter (· ≠ 0)).isEmpty then 0 else Wfm.median (wf.filter (· ≠ 0))

/-- The baseline of a waveform of integers (calib_sensors_functions.py:55-57, 83-85). -/
def baseline : BlsMode → List Int → ℚ
  | .mean, wf => zmean (wf.map fun x : Int => (x : ℚ))
  | .median, wf => zmedian (wf.map fun x : Int => (x : ℚ))
  | .mode, wf => wfMode wf

/-- `subtract_baseline` for a sensor (calib_sensors_functions.py:60-90): `np.where(wfs == 0, 0, wfs - baseline)`. -/
def subtractBaseline (m : BlsMode) (wf : List Int) : List ℚ := wf.map fun x : Int => if x = 0 then 0 else (x : ℚ) - baseline m wf

/-- `calibrate_wfs` (calib_sensors_functions.py:93-101) for a sensor. -/
def calibrateWf (gain : ℚ) (wf : List ℚ) : List ℚ := wf.map fun x => if 0 < gain then x / gain else 0

/-- `calibrate_wfs` (calib_sensors_functions.py:93-101): a single gain is broadcast to all the sensors; otherwise there must be one per sensor. -/
def calibrateWfs (gains : List ℚ) (wfs : List (List ℚ)) : Except PyErr (List (List ℚ)) :=
  match gains with
  | [g] => .ok (wfs.map (calibrateWf g))
  | gains => if gains.length ≠ wfs.length then .error .valueError else .ok (List.zipWith calibrateWf gains wfs)

/-- `subtract_baseline_and_calibrate`, `calibrate_sipms` and the functions of `sipm_processing`
(calib_sensors_functions.py:104-106, 143-169). -/
def subtractAndCalibrate (m : BlsMode) (gains : List ℚ) (wfs : List (List Int)) : Except PyErr (List (List ℚ)) :=
  calibrateWfs gains (wfs.map (subtractBaseline m))

/-- `scipy.signal.lfilter(np.full(n, 1/n), 1, wf)`: the sum of the last `n` samples divided by `n`. -/
def maw (n : Nat) (wf : List ℚ) : List ℚ :=
  (List.range wf.length).map fun i => (pySlice (i + 1 - n) (i + 1) wf).sum / n

/-- `ccwfs_maw` of one sensor (calib_sensors_functions.py:126). -/
def aboveMaw (n : Nat) (thr : ℚ) (wf cal : List ℚ) : List ℚ :=
  List.zipWith (fun (x : ℚ × ℚ) c => if x.2 + thr ≤ x.1 then c else 0) (wf.zip (maw n wf)) cal

/-- `calibrate_pmts` (calib_sensors_functions.py:109-130).  `n_maw = 0` is a `ZeroDivisionError`. -/
def calibratePmts (gains : List ℚ) (nMaw : Nat) (thr : ℚ) (cwfs : Mat) :
    Except PyErr (List (List ℚ) × List (List ℚ) × List ℚ × List ℚ) :=
  if nMaw = 0 then .error .zeroDivision
  else match calibrateWfs gains cwfs.rows with
    | .error e => .error e
    | .ok cal => .ok (cal, List.zipWith (aboveMaw nMaw thr) cwfs.rows cal, Mat.sumSensors ⟨cal, cwfs.ncols⟩,
        Mat.sumSensors ⟨List.zipWith (aboveMaw nMaw thr) cwfs.rows cal, cwfs.ncols⟩)

/-- `pmt_subtract_maw` (calib_sensors_functions.py:133-140) on one sensor. -/
def subtractMaw (n : Nat) (wf : List ℚ) : Except PyErr (List ℚ) :=
  if n = 0 then .error .zeroDivision else .ok (List.zipWith (· - ·) wf (maw n wf))

end Verif.Calib
