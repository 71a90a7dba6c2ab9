import Verif.Model.McInfo
import Verif.Base
/-!
# Model of the sampling widths of a simulation: `get_sensor_binning`, `load_mcconfiguration`, `load_mcsensor_positions`, `load_mcsensor_response_df` (`io/mcinfo_io.py`),
`pmt_and_sipm_bin_width` (`detsim/sensor_utils.py`) and `pmt_and_sipm_bin_width_safe_` (`cities/buffy.py`)

The texts are lists of characters without line breaks.  The conversion of a text to a number (`float`) and the table of units (`getattr(units, ...)`) are parameters.
Simplifications: a file is the content of its tables; warnings, the empty tables of old files and the error of an old file without any
width (`AttributeError`, here `IndexError`) are not modelled; words are separated by spaces.
-/
namespace Verif.Binning

abbrev Text := List Char

/-- `str.contains(sub)` without special characters. -/
def has (sub : Text) (s : Text) : Bool := decide (sub <:+: s)

/-- The match of `.*a.*b.*` (mcinfo_io.py:369, 372): `a` and, after it, `b`. -/
def hasThen (a b s : Text) : Bool := (List.range (s.length + 1)).any fun i => decide (a <+: s.drop i) && has b (s.drop (i + a.length))

/-- `config.param_key.str.replace` twice (mcinfo_io.py:369-374). -/
def oldKey (k : Text) : Text :=
  if hasThen "Pmt".toList "_binning".toList k then "PmtR11410_binning".toList
  else if hasThen "SiPM".toList "_binning".toList k then "SiPM_binning".toList else k

/-- The rows whose key did not appear before (`drop_duplicates`, mcinfo_io.py:375; `~index.duplicated()`, mcinfo_io.py:709), with the keys already `seen`. -/
def firsts (seen : List Text) : List (Text × Text) → List (Text × Text)
  | [] => []
  | (k, v) :: rest => if k ∈ seen then firsts seen rest else (k, v) :: firsts (k :: seen) rest

/-- `load_mcconfiguration` (mcinfo_io.py:351-376): pairs of parameter and value. -/
def loadConfiguration (old : Bool) (config : List (Text × Text)) : List (Text × Text) :=
  if old then firsts [] (config.map fun r => (oldKey r.1, r.2)) else config

/-- `str.split()`: the words. -/
def words (s : Text) : List Text := (s.splitOnP fun c => c == ' ').filter fun w => decide (w ≠ [])

/-- Number of columns of `str.split(expand=True)`. -/
def maxWords (rows : List (Text × Text)) : Nat := (rows.map fun r => (words r.2).length).foldl max 0

/-- The value of a width (mcinfo_io.py:716) in a table of `n` columns: the second word is `KeyError` if no row has it, and `TypeError` if others have it. -/
def width (float unit : Text → Option ℚ) (n : Nat) (v : Text) : Except PyErr ℚ :=
  match (words v)[0]? with
  | none => if n ≤ 1 then .error .keyError else .error .typeError
  | some a => match float a with
    | none => .error .valueError
    | some x => match (words v)[1]? with
      | none => if n ≤ 1 then .error .keyError else .error .typeError
      | some u => match unit u with
        | none => .error .attributeError
        | some y => .ok (x * y)

/-- A row of the table of widths (mcinfo_io.py:712, 715-716). -/
def binRow (float unit : Text → Option ℚ) (n : Nat) (r : Text × Text) : Except PyErr (Text × ℚ) :=
  match width float unit n r.2 with
  | .error e => .error e
  | .ok w => .ok (McInfo.stripBinning r.1, w)

/-- The rows of the parameters with the word binning, once each (mcinfo_io.py:703, 708-709). -/
def binningRows (config : List (Text × Text)) : List (Text × Text) := firsts [] (config.filter fun r => has "binning".toList r.1)

/-- `get_sensor_binning` (mcinfo_io.py:684-718). -/
def sensorBinning (float unit : Text → Option ℚ) (old : Bool) (config : List (Text × Text)) : Except PyErr (List (Text × ℚ)) :=
  match (binningRows (loadConfiguration old config)).mapM (binRow float unit (maxWords (binningRows (loadConfiguration old config)))) with
  | .error e => .error e
  | .ok bins => .ok (bins.filter fun b => !has "Geom".toList b.1)

/-- `bins.bin_width[bins.index.str.contains(name)].iloc[0]` (sensor_utils.py:100-101). -/
def widthOf (name : Text) (bins : List (Text × ℚ)) : Except PyErr ℚ :=
  match (bins.filter fun b => has name b.1).head? with
  | none => .error .indexError
  | some b => .ok b.2

/-- The error of the lack of widths. -/
def noNode : PyErr := .other "NoSuchNodeError"

/-- `pmt_and_sipm_bin_width` (sensor_utils.py:92-102) from the table of widths. -/
def planeWidths (bins : List (Text × ℚ)) : Except PyErr (ℚ × ℚ) :=
  if bins = [] ∨ ∃ b ∈ bins, b.2 ≤ 0 then .error noNode
  else match widthOf "Pmt".toList bins with
    | .error e => .error e
    | .ok p => match widthOf "SiPM".toList bins with
      | .error e => .error e
      | .ok s => .ok (p, s)

/-- The content of a file: its format, its configuration (if it has that table), the response and the positions of the sensors (with their names, that a file of the old
format does not have). -/
structure McFile where
  old : Bool
  config : Option (List (Text × Text))
  response : List McInfo.SnsRow
  positions : List (Nat × Text)

/-- The widths of a file (mcinfo_io.py:702; sensor_utils.py:97). -/
def fileBinning (float unit : Text → Option ℚ) (f : McFile) : Except PyErr (List (Text × ℚ)) :=
  match f.config with
  | none => .error noNode
  | some c => sensorBinning float unit f.old c

/-- `pmt_and_sipm_bin_width` of a file (sensor_utils.py:92-102). -/
def fileWidths (float unit : Text → Option ℚ) (f : McFile) : Except PyErr (ℚ × ℚ) :=
  match fileBinning float unit f with
  | .error e => .error e
  | .ok bins => planeWidths bins

/-- `pmt_and_sipm_bin_width_safe_` (buffy.py:165-174): those of the first file that has them. -/
def firstWidths (float unit : Text → Option ℚ) : List McFile → Except PyErr (ℚ × ℚ)
  | [] => .error noNode
  | f :: rest => match fileWidths float unit f with
    | .ok w => .ok w
    | .error e => if e = noNode then firstWidths float unit rest else .error e

/-- The names given to the sensors of an old file (mcinfo_io.py:413-420): the first name of a PMT to those of the database, the first of another type to the rest; without
sensors they are not looked for (mcinfo_io.py:404, 421-424). -/
def oldPositions (bins : List (Text × ℚ)) (pmtIds : List Nat) (pos : List (Nat × Text)) : Except PyErr (List (Nat × Text)) :=
  if pos = [] then .ok [] else match (bins.filter fun b => has "Pmt".toList b.1).head? with
  | none => .error .indexError
  | some p => match (bins.filter fun b => !has "Pmt".toList b.1).head? with
    | none => .error .indexError
    | some s => .ok (pos.map fun x => (x.1, if x.1 ∈ pmtIds then p.1 else s.1))

/-- The call of `convert_timebin_to_time` (mcinfo_io.py:780-784, 790-793). -/
def times (resp : List McInfo.SnsRow) (bins : List (Text × ℚ)) (pos : List (Nat × Text)) : List McInfo.TimeRow :=
  McInfo.convertTimes resp (bins.map fun b => (String.ofList b.1, b.2)) (pos.map fun x => (x.1, String.ofList x.2))

/-- The response of an old file (mcinfo_io.py:776-786): a database and a run number other than 0 are needed. -/
def oldResponse (float unit : Text → Option ℚ) (f : McFile) (pmtIds : Option (List Nat)) (run : Option Nat) : Except PyErr (List McInfo.TimeRow) :=
  match pmtIds, run with
  | some ids, some (_ + 1) => match fileBinning float unit f with
    | .error e => .error e
    | .ok bins => match oldPositions bins ids f.positions with
      | .error e => .error e
      | .ok pos => .ok (times f.response bins pos)
  | _, _ => .error .assertion

/-- The response of a file of the 2020 format (mcinfo_io.py:787-793). -/
def newResponse (float unit : Text → Option ℚ) (f : McFile) : Except PyErr (List McInfo.TimeRow) :=
  match fileBinning float unit f with
  | .error e => .error e
  | .ok bins => .ok (times f.response bins f.positions)

/-- `load_mcsensor_response_df` (mcinfo_io.py:747-793), with the times. -/
def loadResponse (float unit : Text → Option ℚ) (f : McFile) (pmtIds : Option (List Nat)) (run : Option Nat) : Except PyErr (List McInfo.TimeRow) :=
  if f.old then oldResponse float unit f pmtIds run else newResponse float unit f

end Verif.Binning
