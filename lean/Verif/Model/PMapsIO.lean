import Verif.Model.PMaps
/-!
# Model of `invisible_cities/io/pmaps_io.py`

The HDF5 tables are lists of rows.  Simplifications: `Float32` columns hold exact rationals; the row
identifiers of PyTables are positions; the readers for old files (no `bwidth` column, no individual PMT
tables; pmaps_io.py:193-198, 240-242, 317-329) are not modelled; when storing raises, the rows already
appended are not recorded.
-/
namespace Verif.PMapsIO
open Verif.PMaps

/-- A row of `/PMAPS/S1` or `/PMAPS/S2` (evm/nh5.py:85-96). -/
structure SumRow where
  event : Int
  peak : Nat
  time : ℚ
  bwidth : ℚ
  ene : ℚ
deriving DecidableEq, Repr

/-- A row of `/PMAPS/S1Pmt`, `/PMAPS/S2Pmt` or `/PMAPS/S2Si` (evm/nh5.py:98-122). -/
structure SensorRow where
  event : Int
  peak : Nat
  sensor : Nat
  ene : ℚ
deriving DecidableEq, Repr

/-- The five tables (pmaps_io.py:66-82). -/
structure Tables where
  s1 : List SumRow
  s2 : List SumRow
  si : List SensorRow
  s1i : List SensorRow
  s2i : List SensorRow
deriving DecidableEq, Repr

/-- The tables just created (pmaps_io.py:66-82). -/
def Tables.empty : Tables := ⟨[], [], [], [], []⟩

/-- A PMap (evm/pmaps.py:11-14). -/
structure PMap where
  s1s : List Peak
  s2s : List Peak
deriving DecidableEq

/-- `overflow_protection(peak_number, u16max, ...)` (pmaps_io.py:24, 27; core_functions.py:363-370). -/
def storedPeakNumber (n : Nat) : Nat := if n > 65535 then 65535 else n

/-- `_SensorResponses.waveform` (evm/pmaps.py:141-144): look-up in `dict(zip(ids, all_waveforms))`, where
the last of the repeated keys wins. -/
def waveform (r : Responses) (id : Nat) : Except PyErr (List ℚ) :=
  match ((r.ids.zip r.wfs.rows).reverse.find? fun x => x.1 == id) with
  | some x => .ok x.2
  | none => .error .keyError

/-- One row per time (pmaps_io.py:25-31). -/
def sumRow (p : Peak) (number : Nat) (event : Int) (x : ℚ × Nat) : Except PyErr SumRow :=
  match p.widths[x.2]?, p.pmts.sumOverSensors[x.2]? with
  | some w, some e => .ok ⟨event, storedPeakNumber number, x.1, w, e⟩
  | _, _ => .error .indexError

/-- The rows of one sensor (pmaps_io.py:34-39, 45-50); `modulus` is the number of values of the unsigned
column that holds the sensor id (`UInt8` for PMTs, `UInt16` for SiPMs), where larger ids wrap around. -/
def sensorRows (modulus : Nat) (r : Responses) (number : Nat) (event : Int) (id : Nat) :
    Except PyErr (List SensorRow) :=
  match waveform r id with
  | .error e => .error e
  | .ok wf => .ok (wf.map fun e => ⟨event, storedPeakNumber number, id % modulus, e⟩)

/-- The three groups of rows of a peak: sum, per PMT, per SiPM (pmaps_io.py:19-50). -/
structure PeakRows where
  sum : List SumRow
  pmt : List SensorRow
  sipm : List SensorRow
deriving DecidableEq

/-- `store_peak` (pmaps_io.py:19-50), with `si_table` not `None` iff `withSi`. -/
def storePeak (withSi : Bool) (p : Peak) (number : Nat) (event : Int) : Except PyErr PeakRows :=
  match p.times.zipIdx.mapM (sumRow p number event) with
  | .error e => .error e
  | .ok rows => match p.pmts.ids.mapM (sensorRows 256 p.pmts number event) with
    | .error e => .error e
    | .ok pmts =>
      if withSi then match p.sipms.ids.mapM (sensorRows 65536 p.sipms number event) with
        | .error e => .error e
        | .ok sis => .ok ⟨rows, pmts.flatten, sis.flatten⟩
      else .ok ⟨rows, pmts.flatten, []⟩

/-- The S1 loop (pmaps_io.py:55-56). -/
def storeS1s (event : Int) : List (Peak × Nat) → Tables → Except PyErr Tables
  | [], t => .ok t
  | (p, n) :: rest, t => match storePeak false p n event with
    | .error e => .error e
    | .ok r => storeS1s event rest { t with s1 := t.s1 ++ r.sum, s1i := t.s1i ++ r.pmt }

/-- The S2 loop (pmaps_io.py:57-58). -/
def storeS2s (event : Int) : List (Peak × Nat) → Tables → Except PyErr Tables
  | [], t => .ok t
  | (p, n) :: rest, t => match storePeak true p n event with
    | .error e => .error e
    | .ok r => storeS2s event rest { t with s2 := t.s2 ++ r.sum, s2i := t.s2i ++ r.pmt, si := t.si ++ r.sipm }

/-- `store_pmap` (pmaps_io.py:53-58). -/
def storePmap (t : Tables) (pm : PMap) (event : Int) : Except PyErr Tables :=
  match storeS1s event pm.s1s.zipIdx t with
  | .error e => .error e
  | .ok t' => storeS2s event pm.s2s.zipIdx t'

/-- The writer called once per event (pmaps_io.py:61-63). -/
def storeAll : List (Int × PMap) → Tables → Except PyErr Tables
  | [], t => .ok t
  | (e, pm) :: rest, t => match storePmap t pm e with
    | .error err => .error err
    | .ok t' => storeAll rest t'

/-- `pd.unique` (pmaps_io.py:330, 339): the distinct values in order of appearance. -/
def uniqueFrom {α : Type} [DecidableEq α] (seen : List α) : List α → List α
  | [] => []
  | x :: xs => if x ∈ seen then uniqueFrom seen xs else x :: uniqueFrom (x :: seen) xs

def unique {α : Type} [DecidableEq α] (xs : List α) : List α := uniqueFrom [] xs

/-- `ndarray.reshape(rows, cols)` of a 1-D array (pmaps_io.py:331-332, 342). -/
def reshape (rows cols : Nat) (xs : List ℚ) : Except PyErr Mat :=
  if xs.length ≠ rows * cols then .error .valueError
  else .ok ⟨(List.range rows).map fun i => pySlice (i * cols) ((i + 1) * cols) xs, cols⟩

/-- `build_pmt_responses` (pmaps_io.py:313-333). -/
def buildPmtResponses (df : List SumRow) (idf : List SensorRow) :
    Except PyErr (List ℚ × List ℚ × Responses) :=
  match reshape (unique (idf.map (·.sensor))).length (df.map (·.time)).length (idf.map (·.ene)) with
  | .error e => .error e
  | .ok m => match Responses.mk? (unique (idf.map (·.sensor))) m with
    | .error e => .error e
    | .ok r => .ok (df.map (·.time), df.map (·.bwidth), r)

/-- `build_sipm_responses` (pmaps_io.py:336-343). -/
def buildSipmResponses (df : List SensorRow) : Except PyErr Responses :=
  if df.length = 0 then .ok Responses.empty
  else match reshape (unique (df.map (·.sensor))).length
      ((df.map (·.ene)).length / (unique (df.map (·.sensor))).length) (df.map (·.ene)) with
    | .error e => .error e
    | .ok m => Responses.mk? (unique (df.map (·.sensor))) m

/-- One S1 (pmaps_io.py:350-355). -/
def s1FromDf (df : List SumRow) (idf : List SensorRow) (n : Nat) : Except PyErr Peak :=
  match buildPmtResponses (df.filter fun r => r.peak == n) (idf.filter fun r => r.peak == n) with
  | .error e => .error e
  | .ok (t, w, r) => Peak.mk? t w r Responses.empty

/-- One S2 (pmaps_io.py:364-369). -/
def s2FromDf (df : List SumRow) (idf sidf : List SensorRow) (n : Nat) : Except PyErr Peak :=
  match buildPmtResponses (df.filter fun r => r.peak == n) (idf.filter fun r => r.peak == n) with
  | .error e => .error e
  | .ok (t, w, r) => match buildSipmResponses (sidf.filter fun r => r.peak == n) with
    | .error e => .error e
    | .ok s => Peak.mk? t w r s

/-- `s1s_from_df` (pmaps_io.py:346-357).  The iteration order of `set(s1df.peak)` is taken as the order
of appearance; for the numbers 0, 1, ... n-1 that the writer stores, CPython iterates in this order. -/
def s1sFromDf (df : List SumRow) (idf : List SensorRow) : Except PyErr (List Peak) :=
  (unique (df.map (·.peak))).mapM (s1FromDf df idf)

/-- `s2s_from_df` (pmaps_io.py:360-371), same remark. -/
def s2sFromDf (df : List SumRow) (idf sidf : List SensorRow) : Except PyErr (List Peak) :=
  (unique (df.map (·.peak))).mapM (s2FromDf df idf sidf)

/-- The rows of one event: `groupby("event").groups[event]` and `iloc` with a default of no rows
(pmaps_io.py:244-275), or `read_where` (pmaps_io.py:176-179). -/
def Tables.ofEvent (t : Tables) (e : Int) : Tables :=
  ⟨t.s1.filter fun r => r.event == e, t.s2.filter fun r => r.event == e, t.si.filter fun r => r.event == e,
   t.s1i.filter fun r => r.event == e, t.s2i.filter fun r => r.event == e⟩

/-- The PMap of the rows of one event (pmaps_io.py:271-277, 308-310). -/
def pmapOfRows (t : Tables) : Except PyErr PMap :=
  match s1sFromDf t.s1 t.s1i with
  | .error e => .error e
  | .ok s1s => match s2sFromDf t.s2 t.s2i t.si with
    | .error e => .error e
    | .ok s2s => .ok ⟨s1s, s2s⟩

/-- The event numbers of the sum tables (pmaps_io.py:87-89, 243, 306). -/
def Tables.events (t : Tables) : List Int := t.s1.map (·.event) ++ t.s2.map (·.event)

/-- `check_file_integrity` (pmaps_io.py:85-90): comparison of two sets. -/
def checkIntegrity (run : List Int) (t : Tables) : Except PyErr Unit :=
  if (∀ e ∈ run, e ∈ t.events) ∧ (∀ e ∈ t.events, e ∈ run) then .ok ()
  else .error (.other "InvalidInputFileStructure")

/-- One entry of the dictionary of the eager reader (pmaps_io.py:249-277). -/
def eagerEntry (t : Tables) (e : Int) : Except PyErr (Int × PMap) :=
  match pmapOfRows (t.ofEvent e) with
  | .error err => .error err
  | .ok pm => .ok (e, pm)

/-- `load_pmaps_eager` (pmaps_io.py:139-148, 225-279): the entries of the dictionary.  Their order, that of
a set of event numbers, is immaterial and taken as the order of appearance. -/
def loadEager (run : List Int) (t : Tables) : Except PyErr (List (Int × PMap)) :=
  match checkIntegrity run t with
  | .error e => .error e
  | .ok () => (unique t.events).mapM (eagerEntry t)

/-- One item of the lazy reader (pmaps_io.py:301-310): the event number is read from the rows. -/
def lazyItem (t : Tables) (e : Int) : Except PyErr (Int × PMap) :=
  match (t.ofEvent e).events.head? with
  | none => .error .indexError
  | some e' => match pmapOfRows (t.ofEvent e) with
    | .error err => .error err
    | .ok pm => .ok (e', pm)

/-- `load_pmaps_lazy` (pmaps_io.py:181-190, 282-310), all the items collected. -/
def loadLazy (run : List Int) (t : Tables) (skip : Nat) (n : Option Nat) : Except PyErr (List (Int × PMap)) :=
  match checkIntegrity run t with
  | .error e => .error e
  | .ok () => (pySlice skip (skip + n.getD run.length) run).mapM (lazyItem t)

end Verif.PMapsIO
