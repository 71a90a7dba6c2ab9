import Verif.Base
import Mathlib.Data.List.Sort
import Mathlib.Data.Rat.Defs
/-!
# Model of `io/channel_param_io.py`: the parameters of the fits of each sensor

Simplifications: numbers are rationals (the columns hold 32-bit floats); a parameter is given as a pair, the covariance as a matrix of the
shape of its column; `exit()` is the error `SystemExit`.  `table.row` is the same object in every call, and PyTables sets it to the defaults only after
an `append`.  A file is the list of the tables of its group `FITPARAMS`.
-/
namespace Verif.ChannelParams
open Verif

/-- What a column holds in a row. -/
inductive Cell where
  | id (n : Nat)
  | pair (value error : ℚ)
  | mat (rows : List (List ℚ))
deriving DecidableEq, Repr

/-- What a reader gives for a parameter: a number, or a row of the covariance. -/
inductive Val where
  | num (x : ℚ)
  | row (xs : List ℚ)
deriving DecidableEq, Repr

/-- A row: the value of each column. -/
abbrev Row := List (String × Cell)

/-- A column of the definition of a table: position and default (a description of `tables`, zeros of the shape). -/
structure Col where
  pos : Nat
  default : Cell
deriving DecidableEq, Repr

/-- `d[k] = v` for a dictionary. -/
def put {β : Type} (d : List (String × β)) (k : String) (v : β) : List (String × β) :=
  if k ∈ d.map Prod.fst then d.map fun p => if p.1 = k then (k, v) else p else d ++ [(k, v)]

/-- The loop over the parameters of `make_table_dictionary` (channel_param_io.py:45-46). -/
def putParams : List (String × Col) → Nat → List String → List (String × Col)
  | d, _, [] => d
  | d, i, p :: ps => putParams (put d p ⟨i + 1, .pair 0 0⟩) (i + 1) ps

/-- Zeros of the shape of the covariance. -/
def zeros (shape : Nat × Nat) : Cell := .mat (List.replicate shape.1 (List.replicate shape.2 0))

/-- `make_table_dictionary` (channel_param_io.py:38-54). -/
def makeTableDictionary (names : List String) (covariance : Option (Nat × Nat)) : List (String × Col) :=
  let d := putParams [("SensorID", ⟨0, .id 0⟩)] 0 names
  match covariance with
  | none => d
  | some shape => put d "covariance" ⟨names.length + 1, zeros shape⟩

/-- A table: its rows and the row under construction.  The columns are in the order of their positions. -/
structure Table where
  default : Row
  rows : List Row
  pending : Row
deriving DecidableEq, Repr

/-- `table.colnames`. -/
def Table.colnames (t : Table) : List String := t.default.map Prod.fst

/-- `create_table` with a description: the columns in the order of their positions, no rows (channel_param_io.py:20-24). -/
def newTable (d : List (String × Col)) : Table :=
  let cols := d.insertionSort fun a b => a.2.pos ≤ b.2.pos
  let default := cols.map fun c => (c.1, c.2.default)
  ⟨default, [], default⟩

/-- `channel[key] = param` (channel_param_io.py:31-33): a name that is not of a column is a KeyError. -/
def setCell (row : Row) (k : String) (v : Cell) : Option Row := if k ∈ row.map Prod.fst then some (put row k v) else none

/-- The loop over the items of the fit result (channel_param_io.py:32-33): the row as it is left and whether a key failed. -/
def setCells : Row → List (String × Cell) → Row × Bool
  | row, [] => (row, false)
  | row, (k, v) :: rest => match setCell row k v with
    | none => (row, true)
    | some row => setCells row rest

/-- `store_fit_values` (channel_param_io.py:28-35): the table afterwards, and the error. -/
def storeFitValues (t : Table) (sensor : Nat) (fit : List (String × Cell)) : Table × Option PyErr :=
  let r := setCells (put t.pending "SensorID" (.id sensor)) fit
  if r.2 then ({ t with pending := r.1 }, some .keyError) else ({ t with rows := t.rows ++ [r.1], pending := t.default }, none)

/-- The tables of the group `FITPARAMS`; `none` if there is no such group. -/
abbrev File := Option (List (String × Table))

/-- `create_param_table` (channel_param_io.py:13-25): a table that exists is an error. -/
def createParamTable (f : File) (sensorType func : String) (d : List (String × Col)) : File × Option PyErr :=
  let tables := f.getD []
  let name := "FIT_" ++ sensorType ++ "_" ++ func
  if name ∈ tables.map Prod.fst then (some tables, some (.other "NodeError")) else (some (tables ++ [(name, newTable d)]), none)

/-- The call of a writer (channel_param_io.py:75-84): it stores in its own table. -/
def storeInFile (f : List (String × Table)) (name : String) (sensor : Nat) (fit : List (String × Cell)) : List (String × Table) :=
  f.map fun p => if p.1 = name then (p.1, (storeFitValues p.2 sensor fit).1) else p

/-- `table_row[pname][0]` and `[1]` (channel_param_io.py:162-163). -/
def items (c : Cell) : Except PyErr (Val × Val) :=
  match c with
  | .id _ => .error .indexError
  | .pair v e => .ok (.num v, .num e)
  | .mat (a :: b :: _) => .ok (.row a, .row b)
  | .mat _ => .error .indexError

/-- `parameters_and_errors` (channel_param_io.py:158-165): the two dictionaries.  A name that is not a column is a `KeyError` of a row of `tables`, a `ValueError` of a record of NumPy. -/
def parametersAndErrors (missing : PyErr) (row : Row) : List String → List (String × Val) → List (String × Val) → Except PyErr (List (String × Val) × List (String × Val))
  | [], ps, es => .ok (ps, es)
  | n :: ns, ps, es => match row.lookup n with
    | none => .error missing
    | some c => match items c with
      | .error e => .error e
      | .ok ve => parametersAndErrors missing row ns (put ps n ve.1) (put es n ve.2)

/-- `row['SensorID']`. -/
def sensorId (row : Row) : Except PyErr Nat :=
  match row.lookup "SensorID" with
  | some (.id n) => .ok n
  | _ => .error .keyError

/-- What is yielded for a row (channel_param_io.py:115, 128, 140). -/
def readRow (names : List String) (row : Row) : Except PyErr (Nat × List (String × Val) × List (String × Val)) :=
  match sensorId row with
  | .error e => .error e
  | .ok n => match parametersAndErrors .keyError row names [] [] with
    | .error e => .error e
    | .ok pe => .ok (n, pe)

/-- `all_channel_value_reader` (channel_param_io.py:134-140), consumed until the end. -/
def allChannelValueReader (t : Table) (names : List String) : Except PyErr (List (Nat × List (String × Val) × List (String × Val))) := t.rows.mapM (readRow names)

/-- The table of the file with a name (channel_param_io.py:87-100, 110-118): without the group or the table, exit. -/
def findTable (f : File) (name : String) : Except PyErr Table :=
  match f with
  | none => .error (.other "SystemExit")
  | some ts => match ts.lookup name with
    | none => .error (.other "SystemExit")
    | some t => .ok t

/-- `subset_param_reader` (channel_param_io.py:121-131). -/
def subsetParamReader (f : File) (name : String) (names : List String) : Except PyErr (List (Nat × List (String × Val) × List (String × Val))) :=
  match findTable f name with
  | .error e => .error e
  | .ok t => allChannelValueReader t names

/-- `generator_param_reader` (channel_param_io.py:103-118): all the columns but the first. -/
def generatorParamReader (f : File) (name : String) : Except PyErr (List (Nat × List (String × Val) × List (String × Val))) :=
  match findTable f name with
  | .error e => .error e
  | .ok t => allChannelValueReader t (t.colnames.drop 1)

/-- `single_channel_value_reader` (channel_param_io.py:143-155). -/
def singleChannelValueReader (channel : Nat) (t : Table) (names : List String) : Except PyErr (List (String × Val) × List (String × Val)) :=
  match t.rows.filter fun r => decide (r.lookup "SensorID" = some (.id channel)) with
  | [r] => parametersAndErrors .valueError r names [] []
  | _ => .error (.other "SystemExit")

end Verif.ChannelParams
