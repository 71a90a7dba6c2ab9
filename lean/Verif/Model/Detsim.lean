import Verif.Model.Buffers
/-!
# Model of `invisible_cities/detsim/s2_waveforms_c.pyx`, of the helpers of `cities/detsim.py` and of `detsim/sensor_functions.py`

Waveform matrices are lists of rows, one per sensor.  C integers are unbounded.  A light table is a number of sensors, of partitions
of the EL gap, the width of the gap and a function giving the values of a sensor for a position (`none` is the `NULL` pointer).
Reading a pointer beyond its end (a table with fewer columns than partitions) is not modelled: the value is taken to be 0.
-/
namespace Verif.Detsim

/-- `xs[i] += v` in a 1-D memory view, for an index inside. -/
def addAt (xs : List ℚ) (i : Nat) (v : ℚ) : List ℚ := xs.modify i (· + v)

/-- The inner loop of `spread_histogram` (s2_waveforms_c.pyx:23-24). -/
def spreadOne (out : List ℚ) (aux : Nat) (v : ℚ) (nsamples : Nat) : List ℚ :=
  (List.range nsamples).foldl (fun o i => addAt o (aux + i) v) out

/-- One iteration of the loop of `spread_histogram` (s2_waveforms_c.pyx:20-24). -/
def spreadStep (hist : List ℚ) (nl nr : Nat) (out : List ℚ) (h : Nat) : List ℚ :=
  if 0 < hist.getD h 0 then spreadOne out (h - nl) (hist.getD h 0 / (nl + nr : Nat)) (nl + nr) else out

/-- `spread_histogram` (s2_waveforms_c.pyx:12-25). -/
def spreadHistogram (hist : List ℚ) (nl nr : Nat) : List ℚ :=
  ((List.range' nl (hist.length - nl)).foldl (spreadStep hist nl nr) (List.replicate (hist.length + (nl + nr) - 1) 0)).take hist.length

/-- A light table, as used by `create_wfs` (light_tables_c.pyx:36-61). -/
structure LightTable where
  nsens : Nat
  nz : Nat
  elGap : ℚ
  values : ℚ → ℚ → Nat → Option (List ℚ)

/-- An electron reaching the EL plane: one entry of `xs`, `ys`, `ts`, `phs` (s2_waveforms_c.pyx:28-31). -/
structure Electron where
  x : ℚ
  y : ℚ
  t : ℚ
  ph : Int

/-- `num_bins` (s2_waveforms_c.pyx:67); a negative length of the buffer is not modelled. -/
def numBins (buffer bin : ℚ) : Nat := ⌈buffer / bin⌉.toNat

/-- `time_bs_sns` (s2_waveforms_c.pyx:72-73). -/
def timeBs (lt : LightTable) (dv bin : ℚ) : ℚ := lt.elGap / lt.nz / dv / bin

/-- `el_times` (s2_waveforms_c.pyx:78). -/
def elTimes (lt : LightTable) (dv bin : ℚ) : List ℚ :=
  Buffers.arange (timeBs lt dv bin / 2) (lt.elGap / dv / bin) (timeBs lt dv bin)

/-- One addition to the matrix of waveforms (s2_waveforms_c.pyx:96-100): sensor, bin and signal. -/
structure Deposit where
  sensor : Nat
  tindx : Int
  signal : ℚ

/-- The additions of one electron to one sensor (s2_waveforms_c.pyx:92-100), in the order of the loop. -/
def depositsAt (lt : LightTable) (dv bin tmin : ℚ) (e : Electron) (s : Nat) : List Deposit :=
  match lt.values e.x e.y s with
  | none => []
  | some vals => (elTimes lt dv bin).zipIdx.map fun p : ℚ × Nat =>
      ⟨s, ⌊(e.t - tmin) / bin + p.1⌋, vals.getD p.2 0 * e.ph⟩

/-- The three nested loops of `create_wfs` (s2_waveforms_c.pyx:86-100): electrons, sensors, partitions of the gap. -/
def deposits (lt : LightTable) (dv bin tmin : ℚ) (es : List Electron) : List Deposit :=
  es.flatMap fun e => (List.range lt.nsens).flatMap fun s => depositsAt lt dv bin tmin e s

/-- `wfs[snsindx, tindx] += signal` (s2_waveforms_c.pyx:96-100): times after the last bin are skipped, negative indices are
counted from the end (the module is compiled with the default `wraparound=True`, `boundscheck=True`). -/
def addDeposit (n : Nat) (wfs : List (List ℚ)) (d : Deposit) : Except PyErr (List (List ℚ)) :=
  if (n : Int) ≤ d.tindx then .ok wfs
  else if 0 ≤ d.tindx then .ok (wfs.modify d.sensor fun row => addAt row d.tindx.toNat d.signal)
  else if 0 ≤ d.tindx + n then .ok (wfs.modify d.sensor fun row => addAt row (d.tindx + n).toNat d.signal)
  else .error .indexError

/-- The waveforms before the smearing (s2_waveforms_c.pyx:64-100). -/
def rawWfs (lt : LightTable) (dv bin buffer tmin : ℚ) (es : List Electron) : Except PyErr (List (List ℚ)) :=
  (deposits lt dv bin tmin es).foldlM (addDeposit (numBins buffer bin))
    (List.replicate lt.nsens (List.replicate (numBins buffer bin) 0))

/-- `nsmear` (s2_waveforms_c.pyx:104). -/
def nsmear (lt : LightTable) (dv bin : ℚ) : Nat := ⌈timeBs lt dv bin⌉.toNat

/-- The smearing (s2_waveforms_c.pyx:104-110). -/
def smearWfs (k : Nat) (wfs : List (List ℚ)) : List (List ℚ) :=
  if 1 < k then wfs.map fun row => spreadHistogram row (k / 2) (k - k / 2) else wfs

/-- `create_wfs` (s2_waveforms_c.pyx:28-112). -/
def createWfs (lt : LightTable) (dv bin buffer tmin : ℚ) (es : List Electron) : Except PyErr (List (List ℚ)) :=
  match rawWfs lt dv bin buffer tmin es with
  | .error e => .error e
  | .ok w => .ok (smearWfs (nsmear lt dv bin) w)

/-- Python's `min` and `max` of a non-empty sequence. -/
def minOf : List ℚ → Except PyErr ℚ
  | [] => .error .valueError
  | x :: xs => .ok (xs.foldl min x)
def maxOf : List ℚ → Except PyErr ℚ
  | [] => .error .valueError
  | x :: xs => .ok (xs.foldl max x)

/-- `get_buffer_times_and_length` (cities/detsim.py:117-128). -/
def bufferTimes (pmtW sipmW elGap dv maxLength : ℚ) (time timesPh : List ℚ) : Except PyErr (ℚ × ℚ) :=
  match minOf time with
  | .error e => .error e
  | .ok t0 => match maxOf timesPh with
    | .error e => .error e
    | .ok t1 => .ok (⌊t0 / max pmtW sipmW⌋ * max pmtW sipmW,
        min maxLength (⌈(t1 + elGap / dv) / max pmtW sipmW⌉ * max pmtW sipmW - ⌊t0 / max pmtW sipmW⌋ * max pmtW sipmW))

/-- A Monte Carlo hit: one entry of the arrays `x`, `y`, `z`, `energy`, `time`, `label`. -/
structure MCHit where
  x : ℚ
  y : ℚ
  z : ℚ
  energy : ℚ
  time : ℚ
  label : String
deriving DecidableEq, Repr

/-- `filter_hits_after_max_time(max_time)` (cities/detsim.py:48-60), without the warning. -/
def filterDelayed (maxTime : ℚ) (hits : List MCHit) : Except PyErr (List MCHit) :=
  match minOf (hits.map (·.time)) with
  | .error e => .error e
  | .ok t0 => .ok (hits.filter fun h => decide (h.time - t0 < maxTime))

/-- The label of a volume (cities/detsim.py:78-83): for the files in which labels are numbers, the number is looked up in the table
of names. -/
def volumeLabel (names : Option (List (String × String))) (name : String) : Except PyErr String :=
  match names with
  | none => .ok name
  | some tab => match tab.find? (fun p => p.1 == name) with
    | none => .error .indexError
    | some p => .ok p.2

/-- `hits_selector(active_only)` (cities/detsim.py:63-90). -/
def selectHits (activeOnly : Bool) (names : Option (List (String × String))) (hits : List MCHit) : Except PyErr (List MCHit) :=
  match volumeLabel names "ACTIVE" with
  | .error e => .error e
  | .ok a => match volumeLabel names "BUFFER" with
    | .error e => .error e
    | .ok b => .ok (hits.filter fun h => decide (h.label = a) || (!activeOnly && decide (h.label = b)))

/-- `charge_fluctuation` (sensor_functions.py:16-31), given the values drawn by `np.random.normal` for the positive samples (one per
sample; those of the other samples are not used). -/
def chargeFluctuation (signal draws : List ℚ) (rms : ℚ) : List ℚ :=
  if rms = 0 then signal
  else (List.zipWith (fun s d => if 0 < s then d else s) signal draws).map fun v => if v < 0 then 0 else v

/-- `convert_channel_id_to_IC_id` (sensor_functions.py:12-13): `Index.get_indexer` gives −1 for a missing label and raises
`InvalidIndexError` when the index has repetitions. -/
def channelToIC (channels wanted : List Nat) : Except PyErr (List Int) :=
  if channels.Nodup then .ok (wanted.map fun c => match channels.idxOf? c with
    | none => -1
    | some i => (i : Int))
  else .error (.other "InvalidIndexError")

end Verif.Detsim
