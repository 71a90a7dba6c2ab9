import Verif.Base
import Mathlib.Data.Rat.Floor
/-!
# Model of the files of waveforms, histograms and run information: `io/rwf_io.py`, `io/histogram_io.py`, `io/run_and_event_io.py`, `io/table_io.py`

Simplifications: a file is the list of its groups and of its nodes in order, a node is identified by its group and its name (no name is at the same time of a
group and of a node of the root); compression is not modelled; the sizes of the arrays are not zero.  A sample is converted to the type of the array by
dropping its fraction and, if the integer does not fit, keeping the low bits (NumPy does this for integers; for floats out of range the value is not defined).
A number that does not fit in the column of a table is an `OverflowError` (Python integers).
-/
namespace Verif.WfIO
open Verif

/-- A node is known by its group (`none`: the root) and its name. -/
abbrev Key := Option String × String

/-- The nodes of a file: an extendable array of `bits` bits and shape (events, rows, cols), a fixed array, a table with the ranges of its columns. -/
inductive Node where
  | earray (bits rows cols : Nat) (events : List (List Int))
  | carray (values : List ℚ)
  | table (ranges : List (Int × Int)) (rows : List (List Int))
deriving DecidableEq

/-- A file of PyTables. -/
structure File where
  groups : List String
  nodes : List (Key × Node)
deriving DecidableEq

/-- The node with a key. -/
def File.get (f : File) (k : Key) : Option Node := (f.nodes.find? fun n => decide (n.1 = k)).map Prod.snd

/-- `create_earray`, `create_carray` and `create_table` of PyTables: `NodeError` if the node exists. -/
def create (f : File) (k : Key) (n : Node) : File × Except PyErr Unit :=
  if k ∈ f.nodes.map Prod.fst then (f, .error (.other "NodeError")) else ({ f with nodes := f.nodes ++ [(k, n)] }, .ok ())

/-- `getattr(root, group)` if the group exists, `create_group` otherwise (rwf_io.py:46-51, histogram_io.py:14-15, table_io.py:6-7). -/
def openGroup (f : File) (g : Option String) : File :=
  match g with
  | none => f
  | some s => if s ∈ f.groups then f else { f with groups := f.groups ++ [s] }

/-- `rwf_writer` (rwf_io.py:18-57), without the function that it returns (`writeArray`). -/
def rwfWriter (f : File) (g : Option String) (name : String) (nSensors length : Nat) : File × Except PyErr Unit :=
  create (openGroup f g) (g, name) (.earray 16 nSensors length [])

/-- `hist_writer` (histogram_io.py:7-30), without the function that it returns (`writeArray`). -/
def histWriter (f : File) (g name : String) (nSensors : Nat) (binCentres : List ℚ) : File × Except PyErr Unit :=
  match create (openGroup f (some g)) (some g, name) (.earray 32 nSensors binCentres.length []) with
  | (f', .ok _) => create f' (some g, name ++ "_bins") (.carray binCentres)
  | (f', .error e) => (f', .error e)

/-- The integer part towards zero. -/
def truncate (x : ℚ) : Int := if 0 ≤ x then ⌊x⌋ else ⌈x⌉

/-- The low bits of an integer, with sign. -/
def wrap (bits : Nat) (n : Int) : Int := (n + 2 ^ (bits - 1)) % 2 ^ bits - 2 ^ (bits - 1)

/-- Conversion of a sample to the type of the array (PyTables, `convert_to_np_atom`). -/
def convert (bits : Nat) (x : ℚ) : Int := wrap bits (truncate x)

/-- An array of NumPy, in C order. -/
structure NdArray where
  shape : List Nat
  data : List ℚ
deriving DecidableEq, Repr

/-- Replaces the node with a key. -/
def setNode (k : Key) (n : Node) (m : Key × Node) : Key × Node := if m.1 = k then (k, n) else m

/-- `write_rwf` (rwf_io.py:58-65) and `write_hist` (histogram_io.py:33-34): `reshape(1, n_sensors, length)` and `append`. -/
def writeArray (f : File) (k : Key) (a : NdArray) : File × Except PyErr Unit :=
  match f.get k with
  | some (.earray bits rows cols evs) =>
    if a.data.length = rows * cols then ({ f with nodes := f.nodes.map (setNode k (.earray bits rows cols (evs ++ [a.data.map (convert bits)]))) }, .ok ())
    else (f, .error .valueError)
  | _ => (f, .error (.other "closed"))

/-- The element (event, sensor, sample) of an array of the file. -/
def File.sample (f : File) (k : Key) (event sensor t : Nat) : Option Int :=
  match f.get k with
  | some (.earray _ rows cols evs) => if sensor < rows ∧ t < cols then evs[event]?.bind fun e => e[sensor * cols + t]? else none
  | _ => none

/-- `make_table` (table_io.py:4-14). -/
def makeTable (f : File) (g name : String) (ranges : List (Int × Int)) : File × Except PyErr Unit :=
  create (openGroup f (some g)) (some g, name) (.table ranges [])

/-- Range of a signed column of `b` bits. -/
def signed (b : Nat) : Int × Int := (-(2 ^ (b - 1)), 2 ^ (b - 1) - 1)

/-- Range of an unsigned column of `b` bits. -/
def unsigned (b : Nat) : Int × Int := (0, 2 ^ b - 1)

/-- `_make_run_event_tables` (run_and_event_io.py:8-20) with `RunInfo` and `EventInfo` (evm/nh5.py:5-6 and 13-15): the group must not exist. -/
def runAndEventWriter (f : File) : File × Except PyErr Unit :=
  if "Run" ∈ f.groups then (f, .error (.other "NodeError")) else
    match create { f with groups := f.groups ++ ["Run"] } (some "Run", "runInfo") (.table [signed 32] []) with
    | (f', .ok _) => create f' (some "Run", "events") (.table [signed 64, unsigned 64] [])
    | (f', .error e) => (f', .error e)

/-- `row[...] = ...` and `row.append()` (run_and_event_io.py:31-41). -/
def appendRow (f : File) (k : Key) (row : List Int) : File × Except PyErr Unit :=
  match f.get k with
  | some (.table ranges rows) =>
    if (row.zip ranges).all (fun vr => decide (vr.2.1 ≤ vr.1) && decide (vr.1 ≤ vr.2.2)) then
      ({ f with nodes := f.nodes.map (setNode k (.table ranges (rows ++ [row]))) }, .ok ())
    else (f, .error (.other "OverflowError"))
  | _ => (f, .error (.other "closed"))

/-- `write_run_and_event` (run_and_event_io.py:25-28). -/
def writeRunAndEvent (f : File) (run event timestamp : Int) : File × Except PyErr Unit :=
  match appendRow f (some "Run", "runInfo") [run] with
  | (f', .ok _) => appendRow f' (some "Run", "events") [event, timestamp]
  | (f', .error e) => (f', .error e)

/-- `read_run_and_event` (run_and_event_io.py:44-47). -/
def readRunAndEvent (f : File) : Except PyErr (List (List Int) × List (List Int)) :=
  match f.get (some "Run", "runInfo"), f.get (some "Run", "events") with
  | some (.table _ a), some (.table _ b) => .ok (a, b)
  | _, _ => .error (.other "NoSuchNodeError")

/-- The calls that a city makes on its output file. -/
inductive Op where
  | openRwf (g : Option String) (name : String) (nSensors length : Nat)
  | openHist (g name : String) (nSensors : Nat) (binCentres : List ℚ)
  | openTable (g name : String) (ranges : List (Int × Int))
  | openRun
  | write (k : Key) (a : NdArray)
  | row (k : Key) (row : List Int)
  | event (run event timestamp : Int)

/-- One call. -/
def step (f : File) : Op → File × Except PyErr Unit
  | .openRwf g name n l => rwfWriter f g name n l
  | .openHist g name n b => histWriter f g name n b
  | .openTable g name r => makeTable f g name r
  | .openRun => runAndEventWriter f
  | .write k a => writeArray f k a
  | .row k r => appendRow f k r
  | .event r e t => writeRunAndEvent f r e t

/-- The file after some calls, whatever of them failed. -/
def run (f : File) (ops : List Op) : File := ops.foldl (fun g op => (step g op).1) f

/-- An empty file. -/
def empty : File := ⟨[], []⟩

end Verif.WfIO
