import Verif.Model.Peaks
import Verif.Model.Blr
import Verif.Model.Calib
/-!
# Model of the PMap of an event: `build_pmap`, `sensor_masker`, `zero_suppress_wfs` and the order of the steps of irene and hypathia

An event is the raw waveforms of the PMTs and of the SiPMs, one row per sensor of the tables of the database.  Waveforms are rational.
-/
namespace Verif.PmapBuild
open Verif.PMaps Verif.Core Verif.Peaks

/-- `rwf[mask]` with a mask of booleans (components.py:1819-1820): `IndexError` if it has not as many elements as rows. -/
def boolMask {α : Type} (mask : List Bool) (rows : List α) : Except PyErr (List α) :=
  if mask.length ≠ rows.length then .error .indexError else .ok (((rows.zip mask).filter fun x => x.2).map fun x => x.1)

/-- `sensor_masker` (components.py:1814-1822). -/
def maskSensors {α β : Type} (pmts : List LoadDb.PmtRow) (sipms : List LoadDb.SipmRow) (rwfPmt : List α) (rwfSipm : List β) : Except PyErr (List α × List β) :=
  match boolMask (pmts.map fun p => decide (p.active ≠ 0)) rwfPmt with
  | .error e => .error e
  | .ok a => match boolMask (sipms.map fun s => decide (s.active ≠ 0)) rwfSipm with
    | .error e => .error e
    | .ok b => .ok (a, b)

/-- `pmt_ids` of `build_pmap` (components.py:784).  Simplification: the identifiers are not negative. -/
def pmtIds (pmts : List LoadDb.PmtRow) : List Nat := (pmts.filter fun p => decide (p.active ≠ 0)).map fun p => p.sensor.toNat

/-- `sipm_ids` of `build_pmap` (components.py:785): `np.argwhere(datasipm.Active.values==1).flatten()`. -/
def sipmIds (sipms : List LoadDb.SipmRow) : List Nat := whereIdx (fun s : LoadDb.SipmRow => decide (s.active = 1)) sipms

/-- The parameters of a search, `s1_params` or `s2_params` (components.py:769-781). -/
structure Search where
  time : MinMax
  length : MinMax
  stride : Nat
  rebin : Nat

/-- The configuration of the city used in the PMap: searches, sampling (width of the PMT samples and how many of them are in one SiPM sample), SiPM selection. -/
structure Config where
  s1 : Search
  s2 : Search
  w : ℚ
  ratio : Nat
  sel : Mat → Except PyErr (List Nat × Mat)
  thr1 : ℚ
  thr2 : ℚ

/-- `get_pmap` (peak_functions.py:148-159). -/
def getPmap (c : Config) (ccwf : Mat) (s1Idx s2Idx : List Nat) (sipm : Mat) (pmtIds sipmIds : List Nat) : Except PyErr (List Peak × List Peak) :=
  match findPeaks ccwf s1Idx c.s1.time c.s1.length c.s1.stride c.s1.rebin pmtIds c.w c.ratio none with
  | .error e => .error e
  | .ok s1s => match findPeaks ccwf s2Idx c.s2.time c.s2.length c.s2.stride c.s2.rebin pmtIds c.w c.ratio (some (sipm, sipmIds, c.sel)) with
    | .error e => .error e
    | .ok s2s => .ok (s1s, s2s)

/-- `build_pmap` (components.py:765-792). -/
def buildPmap (c : Config) (pmts : List LoadDb.PmtRow) (sipms : List LoadDb.SipmRow) (ccwf : Mat) (s1Idx s2Idx : List Nat) (sipm : Mat) : Except PyErr (List Peak × List Peak) :=
  getPmap c ccwf s1Idx s2Idx sipm (pmtIds pmts) (sipmIds sipms)

/-- `indices_and_wf_above_threshold(wf, thr).indices` (peak_functions.py:23-26). -/
def above (wf : List ℚ) (thr : ℚ) : List Nat := whereIdx (fun x : ℚ => decide (thr < x)) wf

/-- `zero_suppress_wfs` (components.py:902-906): the S1 samples are those of the second argument, the S2 samples those of the first. -/
def zeroSuppress (c : Config) (sum sumMaw : List ℚ) : List Nat × List Nat := (above sumMaw c.thr1, above sum c.thr2)

/-- The gains of the active PMTs (components.py:796-798). -/
def pmtGains (pmts : List LoadDb.PmtRow) : List ℚ := (pmts.filter fun p => decide (p.active = 1)).map fun p => if p.adcToPes < 0 then -p.adcToPes else p.adcToPes

/-- The gains of the active SiPMs (components.py:809-811).  Simplification: a NULL is a NaN in the code, and 0 here. -/
def sipmGains (sipms : List LoadDb.SipmRow) : List ℚ :=
  (sipms.filter fun s => decide (s.active = 1)).map fun s => if s.adcToPes.getD 0 < 0 then -s.adcToPes.getD 0 else s.adcToPes.getD 0

/-- `compute_and_write_pmaps` on the waveforms of an event (components.py:1306-1317, 1333-1338): `none` if the event has no samples over one of the thresholds;
otherwise the SiPMs are calibrated (`calibrate_sipms`, components.py:808-818) and the PMap is built. -/
def computePmap (c : Config) (pmts : List LoadDb.PmtRow) (sipms : List LoadDb.SipmRow) (ccwf : Mat) (idx : List Nat × List Nat) (sipm : List (List Int)) (nSipm : Nat) :
    Except PyErr (Option (List Peak × List Peak)) :=
  if idx.1 = [] ∨ idx.2 = [] then .ok none
  else match Calib.subtractAndCalibrate .mode (sipmGains sipms) sipm with
    | .error e => .error e
    | .ok cal => match buildPmap c pmts sipms ccwf idx.1 idx.2 ⟨cal, nSipm⟩ with
      | .error e => .error e
      | .ok p => .ok (some p)

/-- The steps of irene on an event (irene.py:97-120, 149-156): mask, `deconv_pmt`, `calibrate_pmts`, `zero_suppress`, `compute_pmaps`.  `n` and `nSipm` are the
numbers of samples of the PMTs and of the SiPMs, `nb`, `nMaw`, `thrMaw` the parameters of the baseline and of the moving average. -/
def ireneEvent (tan : ℚ → ℚ) (c : Config) (nb nMaw : Nat) (thrMaw : ℚ) (pmts : List LoadDb.PmtRow) (sipms : List LoadDb.SipmRow)
    (rwf : List (List ℚ)) (n : Nat) (sipmRwf : List (List Int)) (nSipm : Nat) : Except PyErr (Option (List Peak × List Peak)) :=
  match maskSensors pmts sipms rwf sipmRwf with
  | .error e => .error e
  | .ok m => match Blr.deconvPmt tan pmts nb true m.1 with
    | .error e => .error e
    | .ok cwf => match Calib.calibratePmts (pmtGains pmts) nMaw thrMaw ⟨cwf, n⟩ with
      | .error e => .error e
      | .ok cal => computePmap c pmts sipms ⟨cal.1, n⟩ (zeroSuppress c cal.2.2.1 cal.2.2.2) m.2 nSipm

/-- `rebin_pmts` (hypathia.py:176-186). -/
def rebinPmts (stride : Nat) (rwf : Mat) : Except PyErr Mat :=
  if 1 < stride then
    match rebinTimesAndWaveforms (List.replicate rwf.ncols 0) (List.replicate rwf.ncols 0) rwf stride none with
    | .error e => .error e
    | .ok r => .ok r.2.2
  else .ok rwf

/-- The steps of hypathia on an event (hypathia.py:87-122, 150-160): `mcrd_to_rwf` (from "pmt" to "rwf"), `simulate_pmt` (from "rwf" to "ccwfs"), the simulation of
the SiPMs and its conversion to integers, the mask (of "pmt" and "sipm"), `pmt_sum` (of "ccwfs"), `zero_suppress` (twice the same sum), `compute_pmaps` (with "ccwfs").
The fluctuation of the charge and the simulation of the SiPMs, which are random, are parameters. -/
def hypathiaEvent (c : Config) (fluct : Mat → Except PyErr Mat) (simSipm : List (List ℚ) → Except PyErr (List (List Int))) (stride : Nat)
    (pmts : List LoadDb.PmtRow) (sipms : List LoadDb.SipmRow) (rwf : Mat) (sipmRwf : List (List ℚ)) (nSipm : Nat) : Except PyErr (Option (List Peak × List Peak)) :=
  match rebinPmts stride rwf with
  | .error e => .error e
  | .ok r => match fluct r with
    | .error e => .error e
    | .ok ccwf => match simSipm sipmRwf with
      | .error e => .error e
      | .ok s => match maskSensors pmts sipms rwf.rows s with
        | .error e => .error e
        | .ok m => computePmap c pmts sipms ccwf (zeroSuppress c ccwf.sumSensors ccwf.sumSensors) m.2 nSipm

end Verif.PmapBuild
