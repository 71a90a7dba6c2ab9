import Verif.Model.Calib
import Verif.Model.Blr
/-!
# Model of the calibration cities: phyllis, trude and berenice (`cities/phyllis.py`, `cities/trude.py`, `cities/berenice.py`)

The events are those of the range (C71). Simplifications: exact arithmetic; the counts of the histograms are natural numbers (the file keeps 32 bits, `Model/WfIO`), the columns of Run take any number; the copy of the table of sensors
(`copy_sensor_table`) is not modelled.
-/
namespace Verif.CalibCity
open Verif Verif.Calib

/-- A histogram per sensor. -/
abbrev Hist := List (List Nat)

/-- An event of the input: the raw waveforms are matrices, of `pmtLength` and `sipmLength` samples. -/
structure Event where
  run : Int
  number : Int
  time : Int
  pmt : List (List Int)
  pmtLength : Nat
  sipm : List (List Int)
  sipmLength : Nat

/-- The parameters of the three cities, with what they read from the database and from the first file (`sensor_data`, components.py:754-761). -/
structure Job where
  pmts : List LoadDb.PmtRow
  gains : List ℚ
  tan : ℚ → ℚ
  pmtLength : Nat
  nSipm : Nat
  sipmLength : Nat
  minBin : ℚ
  maxBin : ℚ
  binWidth : ℚ
  nIntegrals : Nat
  start : ℚ
  width : ℚ
  period : ℚ
  nBaseline : Nat
  nMaw : Nat

/-- `np.arange(min_bin, max_bin, bin_width)` (phyllis.py:92, trude.py:79, berenice.py:63). -/
def binEdges (a b w : ℚ) : Except PyErr (List ℚ) :=
  if w = 0 then .error .zeroDivision else .ok ((List.range ⌈(b - a) / w⌉.toNat).map fun i : Nat => a + i * w)

/-- `shift_to_bin_centers` (core_functions.py:302-306). -/
def centres (edges : List ℚ) : List ℚ := List.zipWith (fun a b => a + (b - a) * (1 / 2)) edges edges.tail

/-- `bin_waveforms` (calib_functions.py:20-27): `apply_along_axis` wants some waveform, `np.histogram` edges that do not decrease. -/
def histogram (edges : List ℚ) (wfs : List (List ℚ)) : Except PyErr Hist :=
  if wfs.length = 0 then .error .valueError
  else if (edges.zip edges.tail).any (fun p => decide (p.2 < p.1)) then .error .valueError
  else .ok (binWaveforms edges wfs)

/-- `add` of two arrays of histograms with the same bins (phyllis.py:112): NumPy repeats the only row of one of them. -/
def addHist (acc h : Hist) : Except PyErr Hist :=
  if acc.length = h.length then .ok (List.zipWith (List.zipWith (· + ·)) acc h)
  else if h.length = 1 then .ok (acc.map fun r => List.zipWith (· + ·) r (h.getD 0 []))
  else if acc.length = 1 then .ok (h.map fun r => List.zipWith (· + ·) (acc.getD 0 []) r)
  else .error .valueError

/-- `np.zeros(shape, dtype=int)` (phyllis.py:112, trude.py:99, berenice.py:73). -/
def zeros (ns nb : Nat) : Hist := List.replicate ns (List.replicate nb 0)

/-- The output: the rows (run, number, time) of the tables of Run, and the histograms (name, centres of the bins, counts). -/
structure Out where
  rows : List (Int × Int × Int)
  hists : List (String × List ℚ × Hist)
deriving DecidableEq

/-- One accumulator (`fl.reduce`) on the processed waveforms of an event. -/
def accumulate {W : Type} (w : W) (x : (W → Except PyErr Hist) × Hist) : Except PyErr Hist :=
  match x.1 w with
  | .error e => .error e
  | .ok h => addHist x.2 h

/-- The pipe (phyllis.py:126-139, trude.py:113-126, berenice.py:91-104): process, the accumulators in the order of the fork, and the row of the event. -/
def loop {W : Type} (process : Event → Except PyErr W) (branches : List (W → Except PyErr Hist)) : List Event → List (Int × Int × Int) → List Hist → List (Int × Int × Int) × Except PyErr (List Hist)
  | [], rows, accs => (rows, .ok accs)
  | e :: es, rows, accs => match process e with
    | .error err => (rows, .error err)
    | .ok w => match (branches.zip accs).mapM (accumulate w) with
      | .error err => (rows, .error err)
      | .ok accs' => loop process branches es (rows ++ [(e.run, e.number, e.time)]) accs'

/-- `hist_writer` and `write_hist` (histogram_io.py:7-36): an array without sensors or bins is refused, `reshape` wants as many counts. -/
def writeHists (ns : Nat) (cs : List ℚ) : List (String × Hist) → List (String × List ℚ × Hist) → List (String × List ℚ × Hist) × Except PyErr Unit
  | [], out => (out, .ok ())
  | (name, h) :: rest, out =>
    if ns * cs.length = 0 then (out, .error (.other "NotImplementedError"))
    else if h.flatten.length ≠ ns * cs.length then (out, .error .valueError)
    else writeHists ns cs rest (out ++ [(name, cs, h)])

/-- The part of the cities after the file is opened (phyllis.py:117-143, trude.py:104-130, berenice.py:81-109). -/
def produce {W : Type} (process : Event → Except PyErr W) (branches : List (String × (W → Except PyErr Hist))) (ns : Nat) (edges : List ℚ) (es : List Event) : Out × Except PyErr Unit :=
  match loop process (branches.map Prod.snd) es [] (branches.map fun _ => zeros ns (centres edges).length) with
  | (rows, .error e) => (⟨rows, []⟩, .error e)
  | (rows, .ok accs) => match writeHists ns (centres edges) ((branches.map Prod.fst).zip accs) [] with
    | (hs, r) => (⟨rows, hs⟩, r)

/-- Integrals between the limits and their histogram (phyllis.py:109-111, trude.py:96-98). -/
def integrals (edges : List ℚ) (limits : List Int) (m : Mat) : Except PyErr Hist :=
  match integrate limits m with
  | .error e => .error e
  | .ok x => histogram edges x

/-- phyllis and trude from the number of sensors, the samples of the waveforms, the sampling and the processing: nothing is written when the set-up fails (phyllis.py:92-145, trude.py:79-132). -/
def lightDark (j : Job) (prefix_ : String) (ns length : Nat) (sampling : ℚ) (process : Event → Except PyErr Mat) (es : List Event) : Option Out × Except PyErr Unit :=
  match binEdges j.minBin j.maxBin j.binWidth with
  | .error e => (none, .error e)
  | .ok edges => match validLimits (windowsOf sampling j.start j.width j.period) j.nIntegrals length with
    | .error e => (none, .error e)
    | .ok limits => match produce process [(prefix_ ++ "_spe", integrals edges limits.1), (prefix_ ++ "_dark", integrals edges limits.2)] ns edges es with
      | (o, r) => (some o, r)

/-- `PMTCalibMode` (types/symbols.py:118-121). -/
inductive PmtMode where
  | gain | gainMaw | gainNodeconv
deriving DecidableEq

/-- `SiPMCalibMode` (types/symbols.py:134-140). -/
inductive SipmMode where
  | subtractMode | subtractMedian | subtractModeCalibrate | subtractMeanCalibrate | subtractMedianCalibrate | subtractBaselineCalibrate
deriving DecidableEq

/-- The positions of the active PMTs, `np.nonzero(active)[0]` (phyllis.py:162-163). -/
def activePositions (pmts : List LoadDb.PmtRow) : List Nat := (List.range pmts.length).filter fun i => decide ((pmts[i]?.map (·.active)).getD 0 ≠ 0)

/-- A row of an array by its position. -/
def rowAt (rows : List (List ℚ)) (i : Nat) : Except PyErr (List ℚ) :=
  match rows[i]? with
  | none => .error .indexError
  | some r => .ok r

/-- The processing of phyllis (phyllis.py:87-90, 148-166). -/
def phyllisProcess (j : Job) (mode : PmtMode) (e : Event) : Except PyErr Mat :=
  match mode with
  | .gain => match Blr.deconvPmt j.tan j.pmts j.nBaseline false (e.pmt.map fun w => w.map fun x : Int => (x : ℚ)) with
    | .error err => .error err
    | .ok cwf => .ok ⟨cwf, e.pmtLength⟩
  | .gainMaw => match Blr.deconvPmt j.tan j.pmts j.nBaseline false (e.pmt.map fun w => w.map fun x : Int => (x : ℚ)) with
    | .error err => .error err
    | .ok cwf => match cwf.mapM (subtractMaw j.nMaw) with
      | .error err => .error err
      | .ok out => .ok ⟨out, e.pmtLength⟩
  | .gainNodeconv => match (activePositions j.pmts).mapM (rowAt (e.pmt.map (subtractBaseline .mode))) with
    | .error err => .error err
    | .ok out => .ok ⟨out, e.pmtLength⟩

/-- phyllis (phyllis.py:69-145); `fee.t_sample` is 25 ns (phyllis.py:98). -/
def phyllis (j : Job) (mode : PmtMode) (es : List Event) : Option Out × Except PyErr Unit :=
  lightDark j "pmt" j.pmts.length j.pmtLength 25 (phyllisProcess j mode) es

/-- The processing of trude: the functions of `sipm_processing` are called with the waveforms only (trude.py:95), and four of them want the gains too (calib_sensors_functions.py:143-169). -/
def trudeProcess (mode : SipmMode) (e : Event) : Except PyErr Mat :=
  match mode with
  | .subtractMode => .ok ⟨e.sipm.map (subtractBaseline .mode), e.sipmLength⟩
  | .subtractMedian => .ok ⟨e.sipm.map (subtractBaseline .median), e.sipmLength⟩
  | _ => .error .typeError

/-- trude (trude.py:60-132). -/
def trude (j : Job) (mode : SipmMode) (es : List Event) : Option Out × Except PyErr Unit :=
  lightDark j "sipm" j.nSipm j.sipmLength 1000 (trudeProcess mode) es

/-- One of the calibrated waveforms of berenice and its histograms (berenice.py:68-71, 97-98, 114-125). -/
def calibrated (m : BlsMode) (gains edges : List ℚ) (wfs : List (List Int)) : Except PyErr Hist :=
  match subtractAndCalibrate m gains wfs with
  | .error e => .error e
  | .ok x => histogram edges x

/-- berenice (berenice.py:52-111). -/
def berenice (j : Job) (es : List Event) : Option Out × Except PyErr Unit :=
  match binEdges j.minBin j.maxBin j.binWidth with
  | .error e => (none, .error e)
  | .ok edges => match produce (fun e => .ok e.sipm) [("adc", fun w => histogram edges (w.map (subtractBaseline .mode))), ("mode", calibrated .mode j.gains edges), ("median", calibrated .median j.gains edges)] j.nSipm edges es with
    | (o, r) => (some o, r)

end Verif.CalibCity
