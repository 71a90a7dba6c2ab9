import Verif.Numpy
/-!
# Model of the seeds and bounds of the calibration fits (`calib/calib_functions.py`) and of `poisson_sigma` (`core/stat_functions.py`)

Simplifications: the numbers are rational; the gaussian, the square root, the search of peaks of SciPy, the fits of `curve_fit` and the tables of the
data base are arbitrary (`Ext`).  A scale whose denominator is zero (`inf` or `nan` in NumPy) is zero: the theorems that speak of it ask for a
denominator that is not zero.  The root of a negative number (`nan`) is whatever `root` gives.
-/
namespace Verif.Seeds
open Verif

/-- `SensorType` (types/symbols.py); `other` is any other value. -/
inductive Sensor where
  | sipm
  | pmt
  | other
deriving DecidableEq, Repr

/-- The three values of the fit of a gaussian: area, mean and deviation. -/
structure Gauss where
  area : ℚ
  mean : ℚ
  sigma : ℚ
deriving DecidableEq, Repr

/-- What is passed to a fit of data: positions, values, seeds and errors. -/
structure FitData where
  x : List ℚ
  y : List ℚ
  seed : List ℚ
  sigma : Option (List ℚ)
deriving DecidableEq, Repr

/-- What is taken from outside of the modelled code. -/
structure Ext where
  gauss : Gauss → ℚ → ℚ
  root : ℚ → ℚ
  findPeaks : List ℚ → List Nat → List Nat
  /-- first value of the fit of `scaler` -/
  fitScale : FitData → Except PyErr ℚ
  /-- the fit of a gaussian by `curve_fit` -/
  fitGauss : FitData → Except PyErr Gauss
  /-- columns `adc_to_pes` and `Sigma` -/
  dataSiPM : List (ℚ × ℚ)
  dataPMT : List (ℚ × ℚ)

/-- Positions of a Python slice bound in a sequence of `n` elements. -/
def pyBound (n : Nat) (i : Int) : Nat := if i < 0 then (i + n).toNat else i.toNat

/-- `xs[a:b]` with bounds that may be negative. -/
def slice {α : Type} (a b : Int) (xs : List α) : List α := pySlice (pyBound xs.length a) (pyBound xs.length b) xs

/-- `xs[i]`. -/
def item {α : Type} (xs : List α) (i : Nat) : Except PyErr α :=
  match xs[i]? with
  | some x => .ok x
  | none => .error .indexError

/-- `df.column.iloc[i]`, `i` may be negative. -/
def iloc {α : Type} (xs : List α) (i : Int) : Except PyErr α :=
  if i < 0 then (if i + xs.length < 0 then .error .indexError else item xs (i + xs.length).toNat) else item xs i.toNat

/-- `ys[sel]` where `sel` is a condition on `bins`. -/
def masked (p : ℚ → Bool) (bins ys : List ℚ) : Except PyErr (List ℚ) :=
  if bins.length = ys.length then .ok ((bins.zip ys).filterMap fun by' => if p by'.1 then some by'.2 else none) else .error .indexError

/-- `poisson_sigma` (stat_functions.py:17-24). -/
def poissonSigma (root : ℚ → ℚ) (default : ℚ) (xs : List ℚ) : List ℚ := xs.map fun x => if x = 0 then default else root x

/-- `seeds_db` (calib_functions.py:150-163). -/
def seedsDb (e : Ext) (s : Sensor) (channel : Int) : Except PyErr (ℚ × ℚ) :=
  match s with
  | .sipm => iloc e.dataSiPM channel
  | .pmt => iloc e.dataPMT channel
  | .other => .error .valueError

/-- The check of the errors in `fit` (fit_functions.py:211-214). -/
def checkSigma {α : Type} (fit : FitData → Except PyErr α) (d : FitData) : Except PyErr α :=
  match d.sigma with
  | some s => if s.any (fun e => decide (e ≤ 0)) then .error .valueError else fit d
  | none => fit d

/-- `spectrum[sel].sum() / gauss(bins[sel], *ped_vals).sum()` (calib_functions.py:171-173, 180-181 and 203-204). -/
def scaleOf (e : Ext) (p : ℚ → Bool) (bins spectrum : List ℚ) (ped : Gauss) : Except PyErr ℚ :=
  (masked p bins spectrum).map fun ys => ys.sum / ((bins.filter p).map (e.gauss ped)).sum

/-- The samples selected for the fit of `mu` (calib_functions.py:171 and 180). -/
def muSelection (s : Sensor) (x : ℚ) : Bool :=
  match s with
  | .sipm => decide (x ≥ -5) && decide (x ≤ 5)
  | .pmt => decide (x < 0)
  | .other => false

/-- What is passed to the fit of `mu` (calib_functions.py:170-187). -/
def muFitData (e : Ext) (s : Sensor) (bins spectrum : List ℚ) (ped : Gauss) : Except PyErr FitData :=
  match s with
  | .other => .error .valueError
  | _ =>
    (masked (muSelection s) bins spectrum).bind fun ys =>
      (scaleOf e (muSelection s) bins spectrum ped).map fun dscale =>
        { x := bins.filter (muSelection s), y := ys, seed := [dscale], sigma := if s = .sipm then some (poissonSigma e.root 1 ys) else none }

/-- `poisson_mu_seed` (calib_functions.py:166-187). -/
def poissonMuSeed (e : Ext) (s : Sensor) (bins spectrum : List ℚ) (ped : Gauss) : Except PyErr ℚ :=
  (muFitData e s bins spectrum ped).bind (checkSigma e.fitScale)

/-- `SensorParams` (evm/ic_containers.py:30). -/
structure SensorParams where
  spectra : List ℚ
  peakRange : List Nat
  minBinPeak : ℚ
  maxBinPeak : ℚ
  halfPeakWidth : Nat
  p1peSeed : ℚ
  limPed : ℚ
deriving DecidableEq, Repr

/-- `sensor_values` (calib_functions.py:190-214).  Arrays of different lengths: error. -/
def sensorValues (e : Ext) (s : Sensor) (bins spectrum : List ℚ) (ped : Gauss) : Except PyErr SensorParams :=
  match s with
  | .sipm => .ok ⟨spectrum, (List.range 16).map (4 + ·), 10, 22, 5, 3, 10000⟩
  | .pmt =>
    (scaleOf e (fun x => decide (x < 0)) bins spectrum ped).map fun scale =>
      ⟨List.zipWith (fun y x => y - e.gauss ped x * scale) spectrum bins, (List.range 10).map (10 + ·), 15, 50, 10, 7, 10000⟩
  | .other => .error .valueError

/-- `PedestalParams` (evm/ic_containers.py:31). -/
structure PedestalParams where
  gain : ℚ
  gainMin : ℚ
  gainMax : ℚ
  sigma : ℚ
  sigmaMin : ℚ
  sigmaMax : ℚ
deriving DecidableEq, Repr

/-- `pedestal_values` (calib_functions.py:217-227). -/
def pedestalValues (ped : Gauss) (lim : ℚ) (errs : Gauss) : PedestalParams :=
  let low := ped.sigma - lim * errs.sigma
  { gain := ped.mean, gainMin := ped.mean - lim * errs.mean, gainMax := ped.mean + lim * errs.mean,
    sigma := ped.sigma, sigmaMin := if low > 1 / 1000 then low else 1 / 1000, sigmaMax := ped.sigma + lim * errs.sigma }

/-- The peaks between the limits (calib_functions.py:240). -/
def peaksInRange (v : SensorParams) (bins : List ℚ) (peaks : List Nat) : Except PyErr (List Nat) :=
  (npTake bins peaks).map fun xs =>
    (peaks.zip xs).filterMap fun px => if px.2 > v.minBinPeak ∧ px.2 < v.maxBinPeak then some px.1 else none

/-- `p1pe_centroid` (calib_functions.py:239-247). -/
def centroid (e : Ext) (v : SensorParams) (bins : List ℚ) : Except PyErr Nat :=
  (peaksInRange v bins (e.findPeaks v.spectra v.peakRange)).bind fun samples =>
    if samples = [] then
      match (whereIdx (fun x => decide (x = (v.minBinPeak + v.maxBinPeak) / 2)) bins).head? with
      | some i => .ok i
      | none => .ok (bins.length - 1)
    else
      (npTake v.spectra samples).bind fun ys => (argmax ys).bind fun j => item samples j

/-- What is passed to the fit of the peak of one photoelectron (calib_functions.py:249-257). -/
def peakFitData (e : Ext) (v : SensorParams) (bins : List ℚ) (c : Nat) : Except PyErr FitData :=
  (item v.spectra c).bind fun y => (item bins c).map fun x =>
    let a : Int := (c : Int) - v.halfPeakWidth
    let b : Int := (c : Int) + v.halfPeakWidth
    { x := slice a b bins, y := slice a b v.spectra, seed := [y, x, v.p1peSeed], sigma := some ((slice a b v.spectra).map e.root) }

/-- The seeds taken from the fit of the peak (calib_functions.py:258-263). -/
def gainSeeds (e : Ext) (ped fitted : Gauss) : ℚ × ℚ :=
  (fitted.mean - ped.mean, if fitted.sigma ≤ ped.sigma then 1 / 2 else e.root (fitted.sigma ^ 2 - ped.sigma ^ 2))

/-- `compute_seeds_from_spectrum` (calib_functions.py:230-263). -/
def computeSeeds (e : Ext) (v : SensorParams) (bins : List ℚ) (ped : Gauss) : Except PyErr (ℚ × ℚ) :=
  (centroid e v bins).bind fun c => (peakFitData e v bins c).bind fun d => (checkSigma e.fitGauss d).map (gainSeeds e ped)

/-- The gain and its deviation (calib_functions.py:305-309). -/
def gainOf (e : Ext) (s : Sensor) (useDb : Bool) (channel : Int) (v : SensorParams) (bins : List ℚ) (ped : Gauss) : Except PyErr (ℚ × ℚ) :=
  if useDb then seedsDb e s channel else computeSeeds e v bins ped

/-- The seeds and the bounds: an upper bound that is infinite is `none`. -/
structure Bounded where
  seed : List ℚ
  low : List ℚ
  upp : List (Option ℚ)
deriving DecidableEq, Repr

/-- The last lines of `seeds_and_bounds` (calib_functions.py:314-327). -/
def assemble (norm mu gain gainSigma : ℚ) (free : Option PedestalParams) : Bounded :=
  match free with
  | none => ⟨[norm, mu, gain, gainSigma], [0, 0, 0, 1 / 1000], [none, some 10000, some 10000, some 10000]⟩
  | some p => ⟨[norm, mu, p.gain, p.sigma, gain, gainSigma], [0, 0, p.gainMin, p.gainMax, 0, 1 / 1000],
      [none, some 10000, some p.sigmaMin, some p.sigmaMax, some 10000, some 10000]⟩

/-- The seed of `mu` (calib_functions.py:312). -/
def positiveMu (mu : ℚ) : ℚ := if mu < 0 then 1 / 1000 else mu

/-- `seeds_and_bounds` (calib_functions.py:266-327); `freePedestal` is `'gau' in func`. -/
def seedsAndBounds (e : Ext) (s : Sensor) (channel : Int) (bins spectrum : List ℚ) (ped errs : Gauss) (freePedestal useDb : Bool) :
    Except PyErr Bounded :=
  (sensorValues e s bins spectrum ped).bind fun v => (gainOf e s useDb channel v bins ped).bind fun g =>
    (poissonMuSeed e s bins spectrum ped).map fun mu =>
      assemble spectrum.sum (positiveMu mu) g.1 g.2 (if freePedestal then some (pedestalValues ped v.limPed errs) else none)

end Verif.Seeds
