import Verif.Model.Binning
/-!
# Model of the readers of the Monte Carlo truth in both formats, and of the copy of a file of the old format (`io/mcinfo_io.py`)

A file has the tables listed in its record and no other ones.  Numbers are kept as they are (`float32` columns are not rounded).
-/
namespace Verif.McConvert
open Verif.Binning (Text)

/-- A row of /MC/hits in the format previous to 2020 (nh5.py:52-60). -/
structure OldHit where
  position : ℚ × ℚ × ℚ
  time : ℚ
  energy : ℚ
  label : Text
  particle : Int
  hit : Int
deriving DecidableEq

/-- A row of the dataframe of hits, and of /MC/hits in the 2020 format (mcinfo_io.py:531-541, 549-552). -/
structure Hit where
  event : Int
  particle : Int
  hit : Int
  x : ℚ
  y : ℚ
  z : ℚ
  time : ℚ
  energy : ℚ
  label : Text
deriving DecidableEq

/-- The columns of the hits of an old file (mcinfo_io.py:531-538): labels become strings of 13 characters (`astype('U13')`). -/
def newHit (r : Int × OldHit) : Hit :=
  ⟨r.1, r.2.particle, r.2.hit, r.2.position.1, r.2.position.2.1, r.2.position.2.2, r.2.time, r.2.energy, r.2.label.take 13⟩

/-- A row of /MC/particles in the format previous to 2020 (columns read in mcinfo_io.py:642-661). -/
structure OldParticle where
  index : Int
  name : Text
  primary : Int
  mother : Int
  initial : ℚ × ℚ × ℚ × ℚ
  final : ℚ × ℚ × ℚ × ℚ
  initialVolume : Text
  finalVolume : Text
  momentum : ℚ × ℚ × ℚ
  kinEnergy : ℚ
  creator : Text
deriving DecidableEq

/-- A row of the dataframe of particles, and of /MC/particles in the 2020 format; `none` is NaN (mcinfo_io.py:642-661, 673-679). -/
structure Particle where
  event : Int
  id : Int
  name : Text
  primary : Bool
  mother : Int
  initialX : ℚ
  initialY : ℚ
  initialZ : ℚ
  initialT : ℚ
  finalX : ℚ
  finalY : ℚ
  finalZ : ℚ
  finalT : ℚ
  initialVolume : Text
  finalVolume : Text
  initialPx : ℚ
  initialPy : ℚ
  initialPz : ℚ
  kinEnergy : ℚ
  creator : Text
  finalPx : Option ℚ
  finalPy : Option ℚ
  finalPz : Option ℚ
  length : Option ℚ
  finalProc : Option Text
deriving DecidableEq

/-- The columns of the particles of an old file (mcinfo_io.py:642-661, 673-676). -/
def newParticle (r : Int × OldParticle) : Particle :=
  ⟨r.1, r.2.index, r.2.name.take 20, decide (r.2.primary ≠ 0), r.2.mother, r.2.initial.1, r.2.initial.2.1, r.2.initial.2.2.1, r.2.initial.2.2.2,
    r.2.final.1, r.2.final.2.1, r.2.final.2.2.1, r.2.final.2.2.2, r.2.initialVolume.take 20, r.2.finalVolume.take 20,
    r.2.momentum.1, r.2.momentum.2.1, r.2.momentum.2.2, r.2.kinEnergy, r.2.creator.take 20, none, none, none, none, none⟩

/-- A row of /MC/waveforms: the sensor, the bin and the charge. -/
structure OldSignal where
  sensor : Nat
  bin : Nat
  charge : ℚ
deriving DecidableEq

/-- A row of the response with its event (mcinfo_io.py:812-821). -/
def newSignal (r : Int × OldSignal) : McInfo.SnsRow := ⟨r.1, r.2.sensor, r.2.bin, r.2.charge⟩

/-- A row of /MC/extents. -/
structure Extent where
  event : Int
  lastHit : Int
  lastParticle : Int
  lastSns : Int
deriving DecidableEq

/-- A file of the format previous to 2020; the generators are their event and the rest. -/
structure OldFile where
  extents : List Extent
  config : Option (List (Text × Text)) := none
  generators : Option (List (Int × Text)) := none
  hits : Option (List OldHit) := none
  particles : Option (List OldParticle) := none
  positions : Option (List (Nat × ℚ × ℚ × ℚ)) := none
  waveforms : Option (List OldSignal) := none

/-- A row of /MC/sns_positions. -/
structure Position where
  sensor : Nat
  name : Text
  x : ℚ
  y : ℚ
  z : ℚ
deriving DecidableEq

/-- A file of the 2020 format.  The mapping has `file_index` and `event_id`; the configuration `file_index`, the parameter and its value. -/
structure NewFile where
  config : Option (List (Int × Text × Text)) := none
  mapping : Option (List (Int × Int)) := none
  generators : Option (List (Int × Text)) := none
  hits : Option (List Hit) := none
  particles : Option (List Particle) := none
  positions : Option (List Position) := none
  response : Option (List McInfo.SnsRow) := none

/-- A file of either format: they are told apart by the table of extents (`is_oldformat_file`, mcinfo_io.py:250-265). -/
inductive File where
  | old (f : OldFile)
  | new (f : NewFile)

/-- The table, or the error of its absence. -/
def need {α : Type} : Option α → Except PyErr α
  | none => .error Binning.noNode
  | some x => .ok x

/-- The old rows of a table with their event and new columns (mcinfo_io.py:527-554, 638-681, 809-822). -/
def oldRows {α β : Type} (last : Extent → Int) (cols : Int × α → β) (f : OldFile) (t : Option (List α)) : Except PyErr (List β) :=
  match need t with
  | .error e => .error e
  | .ok rows => match McInfo.loadOld (f.extents.map fun x => (last x, x.event)) rows with
    | .error e => .error e
    | .ok l => .ok (l.map cols)

/-- `load_mchits_df` (mcinfo_io.py:465-554). -/
def loadHits : File → Except PyErr (List Hit)
  | .old f => oldRows Extent.lastHit newHit f f.hits
  | .new f => need f.hits

/-- `load_mcparticles_df` (mcinfo_io.py:581-681). -/
def loadParticles : File → Except PyErr (List Particle)
  | .old f => oldRows Extent.lastParticle newParticle f f.particles
  | .new f => need f.particles

/-- `load_mcsensor_response_df` with `return_raw` (mcinfo_io.py:776-778, 787-789, 796-822). -/
def loadRaw : File → Except PyErr (List McInfo.SnsRow)
  | .old f => oldRows Extent.lastSns newSignal f f.waveforms
  | .new f => need f.response

/-- `load_mcgenerators` (mcinfo_io.py:430-444). -/
def loadGenerators : File → Except PyErr (List (Int × Text))
  | .old f => need f.generators
  | .new f => need f.generators

/-- The parameters and values of `load_mcconfiguration` (mcinfo_io.py:351-376). -/
def loadConfig : File → Except PyErr (List (Text × Text))
  | .old f => match need f.config with
    | .error e => .error e
    | .ok c => .ok (Binning.loadConfiguration true c)
  | .new f => match need f.config with
    | .error e => .error e
    | .ok c => .ok (c.map Prod.snd)

/-- `get_sensor_binning` of a file (mcinfo_io.py:684-718): its configuration is already the one of `load_mcconfiguration`. -/
def loadBins (float unit : Text → Option ℚ) (f : File) : Except PyErr (List (Text × ℚ)) :=
  match loadConfig f with
  | .error e => .error e
  | .ok c => Binning.sensorBinning float unit false c

/-- The sensors of an old file with names: those of the database that of the first binning of a PMT, the rest that of the first one of another type (mcinfo_io.py:412-420). -/
def namePositions (bins : List (Text × ℚ)) (ids : List Nat) (pos : List (Nat × ℚ × ℚ × ℚ)) : Except PyErr (List Position) :=
  match (bins.filter fun b => Binning.has "Pmt".toList b.1).head? with
  | none => .error .indexError
  | some p => match (bins.filter fun b => !Binning.has "Pmt".toList b.1).head? with
    | none => .error .indexError
    | some s => .ok (pos.map fun x => ⟨x.1, if x.1 ∈ ids then p.1 else s.1, x.2.1, x.2.2.1, x.2.2.2⟩)

/-- `load_mcsensor_positions` of an old file (mcinfo_io.py:402-424) with the PMTs of the database (`none` without database or run): without them nothing, with a warning. -/
def oldPositions (float unit : Text → Option ℚ) (f : OldFile) (db : Option (List Nat)) : Except PyErr (List Position) :=
  match need f.positions with
  | .error e => .error e
  | .ok [] => .ok []
  | .ok (x :: xs) => match db with
    | none => .ok []
    | some ids => match loadBins float unit (.old f) with
      | .error e => .error e
      | .ok bins => namePositions bins ids (x :: xs)

/-- `load_mcsensor_positions` (mcinfo_io.py:379-427). -/
def loadPositions (float unit : Text → Option ℚ) (f : File) (db : Option (List Nat)) : Except PyErr (List Position) :=
  match f with
  | .old g => oldPositions float unit g db
  | .new g => need g.positions

/-- The times of a response (mcinfo_io.py:780-784, 790-793). -/
def timesOf (resp : List McInfo.SnsRow) (bins : Except PyErr (List (Text × ℚ))) (pos : Except PyErr (List Position)) : Except PyErr (List McInfo.TimeRow) :=
  match bins with
  | .error e => .error e
  | .ok b => match pos with
    | .error e => .error e
    | .ok p => .ok (Binning.times resp b (p.map fun x => (x.sensor, x.name)))

/-- `load_mcsensor_response_df` with the times (mcinfo_io.py:747-793).  `db` are the PMTs of the database for the run, other than 0, given; `none` when the database or the run is
missing: an old file asserts them. -/
def loadTimes (float unit : Text → Option ℚ) (f : File) (db : Option (List Nat)) : Except PyErr (List McInfo.TimeRow) :=
  match loadRaw f with
  | .error e => .error e
  | .ok resp => match f, db with
    | .old _, none => .error .assertion
    | _, _ => timesOf resp (loadBins float unit f) (loadPositions float unit f db)

/-- A table of the copy: only if the file has it (mcinfo_io.py:171-208). -/
def copyTable {α β : Type} (t : Option α) (load : Except PyErr β) : Except PyErr (Option β) :=
  match t with
  | none => .ok none
  | some _ => match load with
    | .error e => .error e
    | .ok l => .ok (some l)

/-- `tbl[tbl.event_id.isin(evt_arr)]` (mcinfo_io.py:177, 180, 187, 195). -/
def select {α : Type} (event : α → Int) (evts : List Int) (t : Option (List α)) : Option (List α) := t.map fun l => l.filter fun r => decide (event r ∈ evts)

/-- `read_mc_tables` of an old file (mcinfo_io.py:138-209): the tables in the order of their names, that of the iteration over the group. -/
def readTables (float unit : Text → Option ℚ) (f : OldFile) (evts : List Int) (db : Option (List Nat)) : Except PyErr NewFile :=
  match copyTable f.config (loadConfig (.old f)) with
  | .error e => .error e
  | .ok config => match copyTable f.hits (loadHits (.old f)) with
    | .error e => .error e
    | .ok hits => match copyTable f.particles (loadParticles (.old f)) with
      | .error e => .error e
      | .ok particles => match copyTable f.positions (loadPositions float unit (.old f) db) with
        | .error e => .error e
        | .ok positions => match copyTable f.waveforms (loadRaw (.old f)) with
          | .error e => .error e
          | .ok response => .ok
            { config := config.map fun c => c.map fun r => (0, r)
              mapping := some (evts.map fun e => (0, e))
              generators := select Prod.fst evts f.generators
              hits := select Hit.event evts hits
              particles := select Particle.event evts particles
              positions := positions
              response := select McInfo.SnsRow.event evts response }

/-- `copy_mc_info` (mcinfo_io.py:212-242) of an old file to an output without simulated information: the tables with the index 0 of the first file (mcinfo_io.py:59-75, 94-97) and the
mapping of its events, or of all those of the extents (mcinfo_io.py:236-241, 305-306). -/
def convert (float unit : Text → Option ℚ) (f : OldFile) (which : Option (List Int)) (db : Option (List Nat)) : Except PyErr NewFile :=
  match which with
  | none => readTables float unit f (f.extents.map Extent.event) db
  | some evts => readTables float unit f evts db

end Verif.McConvert
