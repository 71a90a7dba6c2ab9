import Verif.Model.PMapsIO
import Mathlib.Data.List.Sort
/-!
# Pandas primitives on lists of rows

Grouping by several columns: a key is the list of the values of the columns.
-/
namespace Verif.Frame
open Verif.PMapsIO (unique)

/-- Lexicographic order of keys. -/
def lexLe {α : Type} [LinearOrder α] : List α → List α → Bool
  | [], _ => true
  | _ :: _, [] => false
  | a :: as, b :: bs => if a = b then lexLe as bs else decide (a ≤ b)

/-- The keys of `groupby(columns)` (eutropia.py:213, psf_functions.py:90, krmap_functions.py:239 of icaros): the distinct keys in increasing order. -/
def groupKeys {α : Type} [LinearOrder α] (keys : List (List α)) : List (List α) :=
  (unique keys).insertionSort fun a b => lexLe a b = true

/-- `groupby(columns)`: each key with its rows, in their order. -/
def groupBy {α R : Type} [LinearOrder α] (key : R → List α) (rows : List R) : List (List α × List R) :=
  (groupKeys (rows.map key)).map fun k => (k, rows.filter fun r => decide (key r = k))

/-- `groupby(...).first()`, for one column: the first value that is not NaN. -/
def firstValid {β : Type} (vals : List (Option β)) : Option β := (vals.filterMap id).head?

/-- `ffill()` for one column, with the last valid value before. -/
def ffill {β : Type} : Option β → List (Option β) → List (Option β)
  | _, [] => []
  | _, some v :: rest => some v :: ffill (some v) rest
  | prev, none :: rest => prev :: ffill prev rest

/-- `bfill()` for one column. -/
def bfill {β : Type} : List (Option β) → List (Option β)
  | [] => []
  | some v :: rest => some v :: bfill rest
  | none :: rest => firstValid rest :: bfill rest

end Verif.Frame
