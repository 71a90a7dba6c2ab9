import Verif.Base
import Mathlib.Data.List.Sort
import Mathlib.Data.Rat.Defs
import Mathlib.Algebra.Order.Ring.Rat
/-!
# Model of the download of the databases and of the check of an update (`database/download.py`, `database/check_gain_update.py`)

The server may change while it is read: it answers each query at a time. The conversion of the statement that creates a table is a parameter (`Model/SqlConvert` has it); what SQLite thinks of it too. The values are those of the server
(simplification: no conversion by the type of the column). A missing file and one without tables are the same.
-/
namespace Verif.DbCopy
open Verif

/-- A table of the server: the answers to `show create table` and to `SELECT *`. -/
structure ServerTable (V : Type) where
  sql : String
  rows : List (List V)

/-- The server at each time. -/
abbrev Server (V : Type) := Nat → String → Option (ServerTable V)

/-- What is kept in the file of SQLite: the rows of each table. -/
abbrev Disk (V : Type) := List (String × List (List V))

/-- The rest of the world. -/
structure Env (V : Type) where
  /-- `os.remove` works, or there is no file. -/
  removable : Bool
  /-- The server can be reached. -/
  reachable : Bool
  convert : String → String
  /-- The number of columns of the table that a statement creates; nothing if SQLite does not understand it. -/
  columns : String → Option Nat
  /-- The table created by the statement takes the rows (the keys are not repeated). -/
  accepts : String → List (List V) → Bool

/-- One turn of the loop of `loadDB` (download.py:64-70) with `create_table_sqlite` (download.py:14-33) and `copy_all_rows` (download.py:36-49): the states of the file, in order. The creation of a table is kept at once; its rows, when they are
committed. The `k`-th turn asks at the times `2 k` and `2 k + 1`. -/
def copyTable {V : Type} (env : Env V) (server : Server V) (k : Nat) (name : String) (disk : Disk V) : List (Disk V) × Except PyErr Unit :=
  match server (2 * k) name with
  | none => ([], .error (.other "ProgrammingError"))
  | some def_ => match env.columns (env.convert def_.sql) with
    | none => ([], .error (.other "OperationalError"))
    | some n =>
      if name ∈ disk.map Prod.fst then ([], .error (.other "OperationalError"))
      else match server (2 * k + 1) name with
        | none => ([disk ++ [(name, [])]], .error (.other "ProgrammingError"))
        | some data => match data.rows with
          | [] => ([disk ++ [(name, [])]], .ok ())
          | r :: rs =>
            if r.length ≠ n ∨ (r :: rs).any (fun x => decide (x.length ≠ r.length)) then ([disk ++ [(name, [])]], .error (.other "ProgrammingError"))
            else if env.accepts (env.convert def_.sql) (r :: rs) then ([disk ++ [(name, [])], disk ++ [(name, r :: rs)]], .ok ())
            else ([disk ++ [(name, [])]], .error (.other "IntegrityError"))

/-- The loop (download.py:64-70). -/
def copyTables {V : Type} (env : Env V) (server : Server V) : Nat → List String → Disk V → List (Disk V) × Except PyErr Unit
  | _, [], _ => ([], .ok ())
  | k, name :: rest, disk => match copyTable env server k name disk with
    | (ds, .error e) => (ds, .error e)
    | (ds, .ok _) => match copyTables env server (k + 1) rest (ds.getLastD disk) with
      | (ds', r) => (ds ++ ds', r)

/-- `loadDB` (download.py:52-70): the file is removed before the server is asked. -/
def loadDB {V : Type} (env : Env V) (server : Server V) (tables : List String) (old : Disk V) : List (Disk V) × Except PyErr Unit :=
  if env.reachable then match copyTables env server 0 tables (if env.removable then [] else old) with
    | (ds, r) => ((if env.removable then [] else old) :: ds, r)
  else ([if env.removable then [] else old], .error (.other "OperationalError"))

/-- `common_tables` (download.py:74-76). -/
def commonTables : List String :=
  ["DetectorGeo", "PmtBlr", "ChannelGain", "ChannelMapping", "ChannelMask", "PmtNoiseRms", "ChannelPosition", "SipmBaseline", "SipmNoisePDF", "PMTFEMapping", "PMTFELowFrequencyNoise"]

/-- `table_dict` (download.py:73-81): `+=` makes another tuple. -/
def tableDict : List (String × List String) := [("NEWDB", commonTables), ("DEMOPPDB", commonTables), ("NEXT100DB", commonTables ++ ["Activity", "Efficiency"]), ("Flex100DB", commonTables)]

/-- `loadDB` for some databases, one after the other (download.py:88-89): the writes, with the name of the database. `old` are the files before. -/
def loadAll {V : Type} (env : String → Env V) (server : String → Server V) (old : String → Disk V) : List (String × List String) → List (String × Disk V) × Except PyErr Unit
  | [] => ([], .ok ())
  | (name, tables) :: rest => match loadDB (env name) (server name) tables (old name) with
    | (ds, .error e) => (ds.map fun d => (name, d), .error e)
    | (ds, .ok _) => match loadAll env server old rest with
      | (ds', r) => (ds.map (fun d => (name, d)) ++ ds', r)

/-- The program (download.py:83-89), with the name of a database or without it. -/
def main {V : Type} (env : String → Env V) (server : String → Server V) (old : String → Disk V) (arg : Option String) : List (String × Disk V) × Except PyErr Unit :=
  match arg with
  | none => loadAll env server old tableDict
  | some name => match tableDict.find? fun x => x.1 == name with
    | none => ([], .error .keyError)
    | some x => loadAll env server old [(name, x.2)]

/-! ### The check -/

/-- A row of a table of the database: the sensor, its interval of runs (that may not have an end) and the rest. -/
structure RunRow (G : Type) where
  sensor : Int
  minRun : Int
  maxRun : Option Int
  value : G

/-- The order of the query: no value first. -/
def runLe (a b : Int × Option Int) : Bool :=
  decide (a.1 < b.1) || (decide (a.1 = b.1) && match a.2, b.2 with
    | none, _ => true
    | some _, none => false
    | some x, some y => decide (x ≤ y))

/-- The query (check_gain_update.py:14), a condition on the sensors being the filter. -/
def intervals {G : Type} (filter : Int → Bool) (rows : List (RunRow G)) : List (Int × Option Int) :=
  (((rows.filter fun r => filter r.sensor).map fun r => (r.minRun, r.maxRun)).dedup).mergeSort runLe

/-- `assert_allclose` on two numbers, the second one of the local copy (check_gain_update.py:26). -/
def close (a b : Int) : Bool := decide (|((a : ℚ) - b)| ≤ (1 / 10000000 : ℚ) * |(b : ℚ)|)

/-- The same, with what is not a number. -/
def closeOpt (a b : Option Int) : Bool :=
  match a, b with
  | none, none => true
  | some x, some y => close x y
  | _, _ => false

/-- `check_minrun_maxrun` (check_gain_update.py:13-33): the shapes have to be equal. -/
def checkRuns {G : Type} (filter : Int → Bool) (mysql sqlite : List (RunRow G)) : Except PyErr (Option Int) :=
  if (intervals filter mysql).length = (intervals filter sqlite).length ∧ ((intervals filter mysql).zip (intervals filter sqlite)).all (fun x => close x.1.1 x.2.1 && closeOpt x.1.2 x.2.2)
  then .ok ((intervals filter sqlite).getLast?.map Prod.fst) else .error .assertion

/-- The two checks of a table (check_gain_update.py:46-53): the latest runs of the SiPMs and of the PMTs. -/
def checkTable {G : Type} (mysql sqlite : List (RunRow G)) : Except PyErr (Option Int × Option Int) :=
  match checkRuns (fun s => decide (s > 100)) mysql sqlite with
  | .error e => .error e
  | .ok sipms => match checkRuns (fun s => decide (s < 100)) mysql sqlite with
    | .error e => .error e
    | .ok pmts => .ok (sipms, pmts)

/-- The script (check_gain_update.py:44-53): the tables of gains, of masks and of noise. -/
def checkAll {G : Type} : List (List (RunRow G) × List (RunRow G)) → Except PyErr (List (Option Int × Option Int))
  | [] => .ok []
  | (m, s) :: rest => match checkTable m s with
    | .error e => .error e
    | .ok x => match checkAll rest with
      | .error e => .error e
      | .ok xs => .ok (x :: xs)

end Verif.DbCopy
