import Verif.Model.PMaps
/-!
# Model of `invisible_cities/reco/peak_functions.py` and `reco/pmaps_functions.py`
-/
namespace Verif.Peaks
open Verif.PMaps Verif.Core

/-- `indices_and_wf_above_threshold` (peak_functions.py:23-26). -/
def indicesAndWfAboveThreshold (wf : List ℚ) (thr : ℚ) : Except PyErr (List Nat × List ℚ) :=
  let indices := whereIdx (fun x => decide (thr < x)) wf
  match npTake wf indices with
  | .error e => .error e
  | .ok w => .ok (indices, w)

/-- `select_wfs_above_time_integrated_thr` (peak_functions.py:29-33). -/
def selectWfsAboveTimeIntegratedThr (wfs : Mat) (thr : ℚ) : Except PyErr (List Nat × Mat) :=
  let ids := whereIdx (fun x => decide (thr ≤ x)) wfs.sumTimes
  match npTake wfs.rows ids with
  | .error e => .error e
  | .ok rows => .ok (ids, ⟨rows, wfs.ncols⟩)

/-- `split_in_peaks` (peak_functions.py:36-38). -/
def splitInPeaks (indices : List Nat) (stride : Nat) : List (List Nat) :=
  let wher := whereIdx (fun d => decide ((stride : Int) < d)) (npDiff indices)
  npSplit indices (wher.map (· + 1))

/-- `is_valid` inside `select_peaks` (peak_functions.py:42-45). -/
def isValid (time length : MinMax) (sampWid : ℚ) (indices : List Nat) : Except PyErr Bool :=
  match indices.head?, indices.getLast? with
  | some first, some last =>
    .ok (time.contains (first * sampWid) && time.contains (last * sampWid) &&
         length.contains ((last : ℚ) + 1 - first))
  | _, _ => .error .indexError

/-- `select_peaks` (peak_functions.py:41-46): `tuple(filter(is_valid, peaks))`. -/
def selectPeaks (time length : MinMax) (sampWid : ℚ) : List (List Nat) → Except PyErr (List (List Nat))
  | [] => .ok []
  | p :: ps =>
    match isValid time length sampWid p with
    | .error e => .error e
    | .ok b => match selectPeaks time length sampWid ps with
      | .error e => .error e
      | .ok qs => .ok (if b then p :: qs else qs)

/-- `get_even_slices` (pmaps_functions.py:13-15); the same expression is the default in
`rebin_times_and_waveforms` (peak_functions.py:166-169).  `int(np.ceil(bins / stride))`. -/
def getEvenSlices (bins stride : Nat) : List (Nat × Nat) :=
  (List.range ((bins + stride - 1) / stride)).map fun i => (stride * i, stride * (i + 1))

/-- Average time of a slice (peak_functions.py:177-184).  The unweighted average of an empty slice is
NaN in numpy and 0 in the model. -/
def averageTime (t : List ℚ) (e : Mat) : Except PyErr ℚ :=
  let s := e.sumSensors.map (max 0)
  if s.any (· ≠ 0) then average t s else .ok (t.sum / t.length)

/-- `rebin_times_and_waveforms` (peak_functions.py:162-187). -/
def rebinTimesAndWaveforms (times widths : List ℚ) (wfs : Mat) (stride : Nat)
    (slices : Option (List (Nat × Nat))) : Except PyErr (List ℚ × List ℚ × Mat) :=
  if stride < 2 then .ok (times, widths, wfs)
  else
    let slices := slices.getD (getEvenSlices times.length stride)
    match slices.mapM fun sl => averageTime (pySlice sl.1 sl.2 times) (wfs.slice sl.1 sl.2) with
    | .error e => .error e
    | .ok ts => .ok (ts, slices.map fun sl => (pySlice sl.1 sl.2 widths).sum,
        ⟨wfs.rows.map fun r => slices.map fun sl => (pySlice sl.1 sl.2 r).sum, slices.length⟩)

/-- `pick_slice_and_rebin` (peak_functions.py:49-65). -/
def pickSliceAndRebin (indices : List Nat) (times widths : List ℚ) (wfs : Mat) (stride : Nat)
    (padZeros : Bool) (ratio : Nat) : Except PyErr (List ℚ × List ℚ × Mat) :=
  match indices.head?, indices.getLast? with
  | some i0, some i1 =>
    let times' := pySlice i0 (i1 + 1) times
    let widths' := pySlice i0 (i1 + 1) widths
    let wfs' := wfs.slice i0 (i1 + 1)
    if padZeros then
      let nMiss := i0 % ratio
      rebinTimesAndWaveforms (List.replicate nMiss 0 ++ times') (List.replicate nMiss 0 ++ widths')
        (wfs'.padLeft nMiss) stride none
    else rebinTimesAndWaveforms times' widths' wfs' stride none
  | _, _ => .error .indexError

/-- `build_pmt_responses` (peak_functions.py:68-77). -/
def buildPmtResponses (indices : List Nat) (times widths : List ℚ) (ccwf : Mat) (pmtIds : List Nat)
    (stride : Nat) (padZeros : Bool) (ratio : Nat) : Except PyErr (List ℚ × List ℚ × Responses) :=
  match pickSliceAndRebin indices times widths ccwf stride padZeros ratio with
  | .error e => .error e
  | .ok (t, w, m) => match Responses.mk? pmtIds m with
    | .error e => .error e
    | .ok r => .ok (t, w, r)

/-- `build_sipm_responses` (peak_functions.py:80-88); the selection algorithm returns the positions of
the selected sensors and their waveforms. -/
def buildSipmResponses (indices : List Nat) (times widths : List ℚ) (sipmWfs : Mat) (sipmIds : List Nat)
    (stride : Nat) (sel : Mat → Except PyErr (List Nat × Mat)) : Except PyErr Responses :=
  match pickSliceAndRebin indices times widths sipmWfs stride false 40 with
  | .error e => .error e
  | .ok (_, _, m) => match sel m with
    | .error e => .error e
    | .ok (idx, m') => match npTake sipmIds idx with
      | .error e => .error e
      | .ok ids => Responses.mk? ids m'

/-- `build_peak` (peak_functions.py:91-116).  `sipm` is `none` for peaks built without SiPMs (S1, or
`sipm_wfs is None`).  Simplification: the ratio of the sampling widths `int(sipm_samp_wid/pmt_samp_wid)`
is given as a natural number; a zero ratio raises `ZeroDivisionError`. -/
def buildPeak (indices : List Nat) (times widths : List ℚ) (ccwf : Mat) (pmtIds : List Nat)
    (stride ratio : Nat)
    (sipm : Option (Mat × List Nat × (Mat → Except PyErr (List Nat × Mat)))) : Except PyErr Peak :=
  if sipm.isSome && decide (ratio = 0) then .error .zeroDivision else
  match buildPmtResponses indices times widths ccwf pmtIds stride sipm.isSome ratio with
  | .error e => .error e
  | .ok (t, w, pmts) =>
    match sipm with
    | none => Peak.mk? t w pmts Responses.empty
    | some (sipmWfs, sipmIds, sel) =>
      match buildSipmResponses (indices.map (· / ratio)) (times.map fun x : ℚ => ((x / (ratio : ℚ)).floor : ℚ))
          (widths.map (· * ratio)) sipmWfs sipmIds (stride / ratio) sel with
      | .error e => .error e
      | .ok sipms => Peak.mk? t w pmts sipms

/-- `mapM` for the loop `for indices in selected_splits` (peak_functions.py:137-144). -/
def buildAll (f : List Nat → Except PyErr Peak) : List (List Nat) → Except PyErr (List Peak)
  | [] => .ok []
  | s :: ss => match f s with
    | .error e => .error e
    | .ok p => match buildAll f ss with
      | .error e => .error e
      | .ok ps => .ok (p :: ps)

/-- `find_peaks` (peak_functions.py:119-145). -/
def findPeaks (ccwfs : Mat) (index : List Nat) (time length : MinMax) (stride rebinStride : Nat)
    (pmtIds : List Nat) (pmtSampWid : ℚ) (ratio : Nat)
    (sipm : Option (Mat × List Nat × (Mat → Except PyErr (List Nat × Mat)))) : Except PyErr (List Peak) :=
  let times := (List.range ccwfs.ncols).map fun i => (i : ℚ) * pmtSampWid
  let widths := List.replicate ccwfs.ncols pmtSampWid
  match selectPeaks time length pmtSampWid (splitInPeaks index stride) with
  | .error e => .error e
  | .ok splits => buildAll (fun s => buildPeak s times widths ccwfs pmtIds rebinStride ratio sipm) splits

/-- The loop of `get_threshold_slices` (pmaps_functions.py:29-34) over `enumerate(np.cumsum(pmt_sum))`:
`i`, the cumulative sum up to `i`, `last_index`, `last_sum`. -/
def thresholdLoop (threshold : ℚ) (i : Nat) (cum : ℚ) (lastIndex : Nat) (lastSum : ℚ) :
    List ℚ → List (Nat × Nat)
  | [] => []
  | x :: xs =>
    let sumVal := cum + x
    if xs.isEmpty || decide (threshold ≤ sumVal - lastSum) then
      (lastIndex, i + 1) :: thresholdLoop threshold (i + 1) sumVal (i + 1) sumVal xs
    else thresholdLoop threshold (i + 1) sumVal lastIndex lastSum xs

/-- `slices[-2:] = [slice(slices[-2].start, slices[-1].stop)]` (pmaps_functions.py:36-37). -/
def mergeLast (wf : List ℚ) (threshold : ℚ) : List (Nat × Nat) → List (Nat × Nat)
  | [] => []
  | [s] => [s]
  | [s, t] => if (pySlice t.1 t.2 wf).sum < threshold then [(s.1, t.2)] else [s, t]
  | s :: t :: u :: rest => s :: mergeLast wf threshold (t :: u :: rest)

/-- `get_threshold_slices` (pmaps_functions.py:18-38). -/
def getThresholdSlices (pmtSum : List ℚ) (threshold : ℚ) : List (Nat × Nat) :=
  mergeLast pmtSum threshold (thresholdLoop threshold 0 0 0 0 pmtSum)

/-- `rebin_peak_to_slices` (pmaps_functions.py:73-93). -/
def rebinPeakToSlices (p : Peak) (slices : List (Nat × Nat)) : Except PyErr Peak :=
  match rebinTimesAndWaveforms p.times p.widths p.pmts.wfs 2 (some slices) with
  | .error e => .error e
  | .ok (t, w, m) => match Responses.mk? p.pmts.ids m with
    | .error e => .error e
    | .ok pmts =>
      if p.sipms.ids.isEmpty then Peak.mk? t w pmts Responses.empty
      else match rebinTimesAndWaveforms p.times p.widths p.sipms.wfs 2 (some slices) with
        | .error e => .error e
        | .ok (_, _, ms) => match Responses.mk? p.sipms.ids ms with
          | .error e => .error e
          | .ok sipms => Peak.mk? t w pmts sipms

/-- `RebinMethod` and `rebin_peak` (pmaps_functions.py:41-70). -/
inductive RebinMethod
  | stride (n : Nat)
  | threshold (thr : ℚ)

def rebinPeak (p : Peak) : RebinMethod → Except PyErr Peak
  | .threshold thr => rebinPeakToSlices p (getThresholdSlices p.pmts.sumOverSensors thr)
  | .stride n => if n ≤ 1 then .ok p else rebinPeakToSlices p (getEvenSlices p.times.length n)

end Verif.Peaks
