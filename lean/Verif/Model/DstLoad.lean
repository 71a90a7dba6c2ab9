import Verif.Model.TableIO
/-!
# Model of `load_dst` and `load_dsts` (`io/dst_io.py`), `dst_event_id_selection` (`reco/dst_functions.py`), `pmap_event_id_selection`
(`reco/pmaps_functions.py`) and of the dictionaries of `core/core_functions.py`

Simplifications: the columns of a table have different names; the type of a column in the concatenation is not modelled (a cell without value is
NaN).  A dictionary is the list of its items, in order of insertion.
-/
namespace Verif.DstLoad
open Verif Verif.TableIO

/-- What is at a path. -/
inductive OnDisk where
  | missing
  | corrupted
  | file (f : File)
deriving DecidableEq, Repr

/-- `read_dst_` (dst_io.py:26-34): a path without file is `OSError` (`IOError`), a file that is not HDF5 is `HDF5ExtError`. -/
def readDst (d : OnDisk) (k : String × String) (evts : Option (List ℚ)) : Except PyErr DF :=
  match d with
  | .missing => .error (.other "IOError")
  | .corrupted => .error (.other "HDF5ExtError")
  | .file f => loadDst f k evts

/-- The errors that become warnings (dst_io.py:39-44). -/
def ignored (e : PyErr) : Bool := decide (e = .other "NoSuchNodeError" ∨ e = .other "HDF5ExtError" ∨ e = .other "IOError")

/-- `load_dst` (dst_io.py:23-46): `none` is Python's `None`. -/
def loadOne (ignoreErrors : Bool) (k : String × String) (evts : Option (List ℚ)) (d : OnDisk) : Except PyErr (Option DF) :=
  match readDst d k evts with
  | .ok t => .ok (some t)
  | .error e => if ignoreErrors && ignored e then .ok none else .error e

/-- A table after `pd.concat`: a cell is empty (NaN) if the table of the row does not have the column. -/
structure Joined where
  cols : List String
  rows : List (List (Option Cell))
deriving DecidableEq, Repr

/-- `pd.concat` of tables, `ignore_index=True`: the columns of all, in order of appearance; `None` is skipped; nothing to put together is `ValueError`. -/
def concat (tables : List (Option DF)) : Except PyErr Joined :=
  let ts := tables.filterMap id
  if ts = [] then .error .valueError else
    let names := PMapsIO.unique (ts.flatMap fun t => t.cols.map Prod.fst)
    .ok ⟨names, ts.flatMap fun t => t.rows.map fun r => names.map (cellOf t.cols r)⟩

/-- `load_dsts` (dst_io.py:49-51). -/
def loadDsts (ignoreErrors : Bool) (k : String × String) (evts : Option (List ℚ)) (paths : List OnDisk) : Except PyErr Joined :=
  (paths.mapM (loadOne ignoreErrors k evts)).bind concat

/-- `dst_event_id_selection` (dst_functions.py:3-21). -/
def eventSelection (data : DF) (ids : List ℚ) : DF :=
  if "event" ∈ data.cols.map Prod.fst then { data with rows := data.rows.filter (rowInEvents data.cols ids) } else data

/-- `dict_map` (core_functions.py:179-194). -/
def dictMap {κ α β : Type} (f : α → β) (d : List (κ × α)) : List (κ × β) := d.map fun kv => (kv.1, f kv.2)

/-- `dict_filter_by_value` (core_functions.py:220-235). -/
def dictFilterValue {κ α : Type} (p : α → Bool) (d : List (κ × α)) : List (κ × α) := d.filter fun kv => p kv.2

/-- `dict_filter_by_key` (core_functions.py:238-251). -/
def dictFilterKey {κ α : Type} (p : κ → Bool) (d : List (κ × α)) : List (κ × α) := d.filter fun kv => p kv.1

/-- `pmap_event_id_selection` (pmaps_functions.py:96-109). -/
def pmapSelection {α : Type} (d : List (Int × α)) (ids : List Int) : List (Int × α) := dictFilterKey (fun k => decide (k ∈ ids)) d

/-- `df_map` (core_functions.py:197-217). -/
def dfMap (f : Cell → Cell) (df : DF) (field : String) : Except PyErr DF :=
  if field ∈ df.cols.map Prod.fst then
    .ok { df with rows := df.rows.map fun r => ((df.cols.map Prod.fst).zip r).map fun nc => if nc.1 = field then f nc.2 else nc.2 }
  else .error .keyError

end Verif.DstLoad
