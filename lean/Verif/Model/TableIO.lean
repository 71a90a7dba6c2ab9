import Verif.Model.PMapsIO
/-!
# Model of `io/dst_io.py`, `io/event_filter_io.py`, `io/trigger_io.py`

HDF5 nodes are lists of rows with typed columns.  Simplifications: numeric casts keep the value (no
overflow or rounding when a table has a narrower type of the same kind); warnings, compression and titles
are not modelled; the text of a number stored in a string column is opaque.
-/
namespace Verif.TableIO
open Verif.PMapsIO (unique)

/-- Kinds of dtypes in the order used by NumPy's `same_kind` casting; `obj` is a pandas column of Python
strings and `str n` a bytes column of `n` characters. -/
inductive DType where
  | bool
  | uint
  | int
  | float
  | obj
  | str (n : Nat)
deriving DecidableEq, Repr

def DType.rank : DType → Nat
  | .bool => 0
  | .uint => 1
  | .int => 2
  | .float => 3
  | .obj => 4
  | .str _ => 4

inductive Cell where
  | num (x : ℚ)
  | text (s : String)
deriving DecidableEq, Repr

/-- A dataframe: columns with their types and the rows, each with one cell per column. -/
structure DF where
  cols : List (String × DType)
  rows : List (List Cell)
deriving DecidableEq, Repr

/-- A table of the file.  `index` is the attribute `columns_to_index`. -/
structure Table where
  cols : List (String × DType)
  rows : List (List Cell)
  index : Option (List String)
deriving DecidableEq, Repr

/-- A file: the tables by (group, name). -/
abbrev File := List ((String × String) × Table)

def File.get (f : File) (k : String × String) : Option Table := (f.find? fun x => x.1 == k).map (·.2)

/-- Replace the node, or create it at the end. -/
def File.set (f : File) (k : String × String) (t : Table) : File :=
  match f with
  | [] => [(k, t)]
  | x :: xs => if x.1 == k then (k, t) :: xs else x :: File.set xs k t

/-- `_make_tabledef` (dst_io.py:53-61). -/
def makeTabledef (cols : List (String × DType)) (strLen : Nat) : List (String × DType) :=
  cols.map fun c => if c.2 = .obj then (c.1, .str strLen) else c

/-- type of a column by name -/
def dtypeOf (cols : List (String × DType)) (name : String) : Option DType :=
  (cols.find? fun c => c.1 == name).map (·.2)

/-- One column in the loop of `_check_castability` (dst_io.py:69-76): object columns are not checked. -/
def castable (tcols : List (String × DType)) (c : String × DType) : Bool :=
  match dtypeOf tcols c.1 with
  | none => false
  | some t => if c.2 = .obj then true else decide (c.2.rank ≤ t.rank)

/-- `_check_castability` (dst_io.py:63-76). -/
def checkCastability (cols tcols : List (String × DType)) : Except PyErr Unit :=
  if ¬ ((∀ c ∈ cols.map Prod.fst, c ∈ tcols.map Prod.fst) ∧ (∀ c ∈ tcols.map Prod.fst, c ∈ cols.map Prod.fst)) then
    .error (.other "TableMismatch")
  else if cols.all (castable tcols) then .ok () else .error (.other "TableMismatch")

/-- One cell in `astype` (dst_io.py:123): strings are truncated to the width of the column, a string in a
numeric column cannot be converted (strings that spell numbers are not considered). -/
def castCell (t : DType) (c : Cell) : Except PyErr Cell :=
  match t, c with
  | .str n, .text s => .ok (.text (String.ofList (s.toList.take n)))
  | .str n, .num _ => .ok (.text (String.ofList ("<number>".toList.take n)))
  | .obj, c => .ok c
  | _, .text _ => .error .valueError
  | _, .num x => .ok (.num x)

/-- The cell of the column `name` in a row with the given columns. -/
def cellOf (cols : List (String × DType)) (row : List Cell) (name : String) : Option Cell :=
  ((cols.map Prod.fst).zip row).find? (fun x => x.1 == name) |>.map (·.2)

/-- `arr[columns]` (a reordering) followed by `astype` for one cell (dst_io.py:122-123). -/
def castColumn (cols : List (String × DType)) (row : List Cell) (tc : String × DType) : Except PyErr Cell :=
  match cellOf cols row tc.1 with
  | none => .error .keyError
  | some c => castCell tc.2 c

def castRow (cols tcols : List (String × DType)) (row : List Cell) : Except PyErr (List Cell) :=
  tcols.mapM (castColumn cols row)

/-- The columns flagged for indexing (dst_io.py:127-132). -/
def flagIndex (f : File) (k : String × String) (t : Table) (cols : List (String × DType)) :
    Option (List String) → File × Except PyErr Unit
  | none => (f.set k t, .ok ())
  | some idx => if ∀ c ∈ idx, c ∈ cols.map Prod.fst then (f.set k { t with index := some idx }, .ok ())
    else (f.set k t, .error .keyError)

/-- The node to write to, created if missing (dst_io.py:102-117). -/
def openTable (f : File) (df : DF) (k : String × String) (strLen : Nat) : Table :=
  match f.get k with
  | some t => t
  | none => ⟨makeTabledef df.cols strLen, [], none⟩

/-- `df_writer` (dst_io.py:79-132): the new state of the file and the outcome.  The node is created before
anything is checked. -/
def dfWriter (f : File) (df : DF) (k : String × String) (strLen : Nat) (idx : Option (List String)) :
    File × Except PyErr Unit :=
  if df.rows.length ≠ 0 then
    match checkCastability df.cols (openTable f df k strLen).cols with
    | .error e => (f.set k (openTable f df k strLen), .error e)
    | .ok () => match df.rows.mapM (castRow df.cols (openTable f df k strLen).cols) with
      | .error e => (f.set k (openTable f df k strLen), .error e)
      | .ok rows => flagIndex f k { openTable f df k strLen with rows := (openTable f df k strLen).rows ++ rows }
          df.cols idx
  else flagIndex f k (openTable f df k strLen) df.cols idx

/-- Whether the row is of one of the events (dst_io.py:32-33). -/
def rowInEvents (cols : List (String × DType)) (evts : List ℚ) (row : List Cell) : Bool :=
  match cellOf cols row "event" with
  | some (.num x) => decide (x ∈ evts)
  | _ => false

/-- `load_dst` (dst_io.py:23-46) of an existing file; a missing node raises. -/
def loadDst (f : File) (k : String × String) (evts : Option (List ℚ)) : Except PyErr DF :=
  match f.get k with
  | none => .error (.other "NoSuchNodeError")
  | some t => match evts with
    | none => .ok ⟨t.cols, t.rows⟩
    | some es => if "event" ∈ t.cols.map Prod.fst then .ok ⟨t.cols, t.rows.filter (rowInEvents t.cols es)⟩
      else .error .keyError

/-! ## event_filter_io.py -/

/-- A filter table: its name and its records (event, passed). -/
structure Filter where
  name : String
  records : List (Int × Bool)
deriving DecidableEq, Repr

/-- `write_event_passed` (event_filter_io.py:16-19). -/
def writeEventPassed (f : Filter) (event : Int) (passed : Bool) : Filter :=
  { f with records := f.records ++ [(event, passed)] }

/-- The value of a filter for an event after `concat(axis=1)` and `fillna(False)`
(event_filter_io.py:31-34). -/
def filterValue (f : Filter) (event : Int) : Bool :=
  match f.records.find? fun r => r.1 == event with
  | some r => r.2
  | none => false

/-- `event_filter_reader` (event_filter_io.py:24-34): one row per event with one flag per filter.
`pd.concat(axis=1)` of no table raises `ValueError`; tables with identical indexes are put side by side;
otherwise repeated events raise `InvalidIndexError`.  The order of the union of different indexes is taken
as that of appearance. -/
def eventFilterReader (fs : List Filter) : Except PyErr (List (Int × List Bool)) :=
  match fs with
  | [] => .error .valueError
  | f :: rest =>
    if ∀ g ∈ rest, g.records.map Prod.fst = f.records.map Prod.fst then
      .ok (f.records.zipIdx.map fun x => (x.1.1, (f :: rest).map fun g => (g.records.map Prod.snd).getD x.2 false))
    else if ∀ g ∈ f :: rest, (g.records.map Prod.fst).Nodup then
      .ok ((unique ((f :: rest).flatMap fun g => g.records.map Prod.fst)).map fun e =>
        (e, (f :: rest).map fun g => filterValue g e))
    else .error (.other "InvalidIndexError")

/-! ## trigger_io.py -/

/-- The two nodes of the group `Trigger`, and the width of the array (trigger_io.py:27-43). -/
structure TriggerTables where
  types : List Int
  channels : List (List Int)
  nSensors : Nat
deriving DecidableEq, Repr

/-- `store_trigger` (trigger_io.py:9-19).  A type that is `None` or zero is false and is skipped; `None`
channels are skipped; an array of another width than the node raises `ValueError` after the type is stored. -/
def storeTrigger (t : TriggerTables) (trgType : Option Int) (channels : Option (List Int)) :
    TriggerTables × Except PyErr Unit :=
  let t' := match trgType with
    | some x => if x ≠ 0 then { t with types := t.types ++ [x] } else t
    | none => t
  match channels with
  | none => (t', .ok ())
  | some c => if c.length ≠ t'.nSensors then (t', .error .valueError)
    else ({ t' with channels := t'.channels ++ [c] }, .ok ())

end Verif.TableIO
