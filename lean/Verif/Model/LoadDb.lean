import Verif.Model.PMapsIO
import Mathlib.Data.List.Sort
import Mathlib.Data.List.Dedup
/-!
# Model of the queries of the database (`database/load_db.py`)

NULL is `none`.  A join is the list of the pairs of rows that match; rows with the same key in `order by` have no defined order in SQL, the model keeps that of the tables (theorems about order are stated only when the keys
are different).  The cache (`lru_cache`) and the connection are not modelled.
-/
namespace Verif.LoadDb

/-- The runs for which a row is valid, the columns `MinRun` and `MaxRun`. -/
structure Runs where
  lo : Int
  hi : Option Int
deriving DecidableEq, Repr

/-- `MinRun <= {0} and {0} <= MaxRun`: false if MaxRun is NULL. -/
def closedRun (run : Int) (r : Runs) : Bool := decide (r.lo ≤ run) && match r.hi with
  | none => false
  | some h => decide (run ≤ h)

/-- `MinRun <= {0} and (MaxRun >= {0} or MaxRun is NULL)`. -/
def openRun (run : Int) (r : Runs) : Bool := decide (r.lo ≤ run) && match r.hi with
  | none => true
  | some h => decide (h ≥ run)

/-- `ChannelPosition`. -/
structure Pos where
  runs : Runs
  sensor : Int
  label : Option String
  x : ℚ
  y : ℚ
deriving DecidableEq, Repr

/-- `ChannelMapping`. -/
structure Mapping where
  runs : Runs
  sensor : Int
  elec : Int
deriving DecidableEq, Repr

/-- `ChannelMask`. -/
structure Mask where
  runs : Runs
  sensor : Int
deriving DecidableEq, Repr

/-- `ChannelGain`. -/
structure Gain where
  runs : Runs
  sensor : Int
  centroid : Option ℚ
  errCentroid : Option ℚ
  sigma : Option ℚ
  errSigma : Option ℚ
deriving DecidableEq, Repr

/-- `PmtNoiseRms`. -/
structure NoiseRms where
  runs : Runs
  elec : Int
  rms : Option ℚ
deriving DecidableEq, Repr

/-- `PmtBlr`. -/
structure Blr where
  runs : Runs
  elec : Int
  blr : Option ℚ
  c : Option ℚ
deriving DecidableEq, Repr

/-- `SipmBaseline`. -/
structure Baseline where
  runs : Runs
  sensor : Int
  energy : ℚ
deriving DecidableEq, Repr

/-- `SipmNoisePDF`. -/
structure NoisePdf where
  runs : Runs
  sensor : Int
  bin : ℚ
  prob : ℚ
deriving DecidableEq, Repr

/-- `Activity` and `Efficiency`. -/
structure Versioned where
  volume : String
  isotope : String
  value : ℚ
  version : Int
deriving DecidableEq, Repr

/-- The tables. -/
structure Db where
  pos : List Pos
  mapping : List Mapping
  mask : List Mask
  gain : List Gain
  noiseRms : List NoiseRms
  blr : List Blr
  baseline : List Baseline
  noisePdf : List NoisePdf
deriving DecidableEq, Repr

/-- A row of the table of PMTs. -/
structure PmtRow where
  sensor : Int
  channel : Int
  label : Option String
  active : Nat
  x : ℚ
  y : ℚ
  coeffBlr : Option ℚ
  coeffC : Option ℚ
  adcToPes : ℚ
  adcToPesErr : Option ℚ
  noiseRms : Option ℚ
  sigma : Option ℚ
  errSigma : Option ℚ
deriving DecidableEq, Repr

/-- A row of the table of SiPMs. -/
structure SipmRow where
  sensor : Int
  channel : Int
  active : Nat
  x : ℚ
  y : ℚ
  adcToPes : Option ℚ
  adcToPesErr : Option ℚ
  sigma : Option ℚ
  errSigma : Option ℚ
deriving DecidableEq, Repr

/-- The run used: `runNumberForMC` if it is 0, and its absolute value (load_db.py:23, 27-28, 50, 58-59, 75). -/
def runOf (run : Int) : Int := (if run = 0 then 3012 else run).natAbs

/-- `LEFT JOIN`: the matches of a row, or NULL if there is none. -/
def left {α : Type} (rows : List α) (p : α → Bool) : List (Option α) := if rows.filter p = [] then [none] else (rows.filter p).map some

/-- `Label LIKE 'PMT%'` (load_db.py:48): LIKE does not distinguish upper and lower case; false for NULL. -/
def likePmt (label : Option String) : Bool := match label with
  | none => false
  | some s => decide ((s.toList.take 3).map Char.toUpper = ['P', 'M', 'T'])

/-- `DataPMT` (load_db.py:25-54).  Of the columns in `fillna` only `adc_to_pes` exists. -/
def dataPMT (db : Db) (run : Int) : List PmtRow :=
  ((((db.pos.filter fun p => decide (p.sensor < 100) && closedRun (runOf run) p.runs && likePmt p.label).flatMap fun p =>
    ((db.mapping.filter fun m => decide (p.sensor = m.sensor) && closedRun (runOf run) m.runs).flatMap fun m =>
      (left (db.noiseRms.filter fun n => openRun (runOf run) n.runs) fun n => decide (m.elec = n.elec)).flatMap fun n =>
        (left (db.mask.filter fun k => closedRun (runOf run) k.runs) fun k => decide (p.sensor = k.sensor)).flatMap fun k =>
          (left (db.gain.filter fun g => closedRun (runOf run) g.runs) fun g => decide (p.sensor = g.sensor)).flatMap fun g =>
            (left (db.blr.filter fun b => openRun (runOf run) b.runs) fun b => decide (m.elec = b.elec)).map fun b =>
              (⟨p.sensor, m.elec, p.label, if k = none then 1 else 0, p.x, p.y, b.bind (·.blr), b.bind (·.c), ((g.bind (·.centroid)).map abs).getD 0, g.bind (·.errCentroid),
                n.bind (·.rms), g.bind (·.sigma), g.bind (·.errSigma)⟩ : PmtRow)))).insertionSort fun a b => a.sensor ≤ b.sensor)

/-- `DataSiPM` before the default sigma (load_db.py:63-76). -/
def querySiPM (db : Db) (run : Int) : List SipmRow :=
  ((db.pos.filter fun p => decide (p.sensor > 100) && closedRun (runOf run) p.runs).flatMap fun p =>
    (db.gain.filter fun g => decide (p.sensor = g.sensor) && closedRun (runOf run) g.runs).flatMap fun g =>
      (db.mapping.filter fun m => decide (p.sensor = m.sensor) && closedRun (runOf run) m.runs).flatMap fun m =>
        (left (db.mask.filter fun k => closedRun (runOf run) k.runs) fun k => decide (p.sensor = k.sensor)).map fun k =>
          (⟨p.sensor, m.elec, if k = none then 1 else 0, p.x, p.y, g.centroid, g.errCentroid, g.sigma, g.errSigma⟩ : SipmRow)).insertionSort fun a b => a.sensor ≤ b.sensor

/-- `data.Sigma.values.any()` (load_db.py:80).  If all the values are NULL the column has objects and None counts as false; if only some are, they are NaN, which counts as true. -/
def anySigma (rows : List SipmRow) : Bool := !(rows.all fun r => decide (r.sigma = none)) && rows.any fun r => decide (r.sigma ≠ some 0)

/-- `DataSiPM` (load_db.py:56-83). -/
def dataSiPM (db : Db) (run : Int) : List SipmRow :=
  if anySigma (querySiPM db run) then querySiPM db run else (querySiPM db run).map fun r => { r with sigma := some (224 / 100) }

/-- The order `SensorID, BinEnergyPes`. -/
def pdfLe (a b : NoisePdf) : Prop := a.sensor < b.sensor ∨ (a.sensor = b.sensor ∧ a.bin ≤ b.bin)

instance : DecidableRel pdfLe := fun a b => by unfold pdfLe; infer_instance

/-- `SiPMNoise` (load_db.py:93-119): the noise of each sensor, the bins and the baselines.  The run 0 is not replaced. -/
def sipmNoise (db : Db) (run : Int) : Except PyErr (Mat × List ℚ × List ℚ) :=
  match PMapsIO.reshape ((db.baseline.filter fun b => openRun run.natAbs b.runs).length) (((db.noisePdf.filter fun n => openRun run.natAbs n.runs).map NoisePdf.bin).dedup.length)
    (((db.noisePdf.filter fun n => openRun run.natAbs n.runs).insertionSort pdfLe).map NoisePdf.prob) with
  | .error e => .error e
  | .ok m => .ok (m, ((db.noisePdf.filter fun n => openRun run.natAbs n.runs).map NoisePdf.bin).dedup.insertionSort (· ≤ ·),
      ((db.baseline.filter fun b => openRun run.natAbs b.runs).insertionSort fun a b => a.sensor ≤ b.sensor).map Baseline.energy)

/-- The row of the largest version, one after another. -/
def better (best : Option Versioned) (r : Versioned) : Option Versioned := match best with
  | none => some r
  | some b => if b.version < r.version then some r else some b

/-- One table of `RadioactivityData` (load_db.py:155-161): for each volume and isotope the row with the largest version not above the one asked (SQLite takes the other columns from the row of `MAX`; the first one if there are several). -/
def lastVersion (rows : List Versioned) (version : Int) : List (String × String × ℚ) :=
  (((rows.filter fun r => decide (r.version ≤ version)).map fun r => (r.volume, r.isotope)).dedup).filterMap fun k =>
    (((rows.filter fun r => decide (r.version ≤ version)).filter fun r => decide ((r.volume, r.isotope) = k)).foldl better none).map fun r => (k.1, k.2, r.value)

/-- The version by default: the largest one of the table of activities (load_db.py:152-153); if it is empty the code fails (`None` is written in the query), the model gives -1. -/
def defaultVersion (activity : List Versioned) : Int := (activity.map Versioned.version).foldl max (-1)

/-- `RadioactivityData` (load_db.py:147-165); versions are not negative. -/
def radioactivity (activity efficiency : List Versioned) (version : Option Int) : List (String × String × ℚ) × List (String × String × ℚ) :=
  (lastVersion activity (version.getD (defaultVersion activity)), lastVersion efficiency (version.getD (defaultVersion activity)))

end Verif.LoadDb
