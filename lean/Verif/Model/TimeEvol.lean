import Verif.Model.Frame
import Verif.Model.Voxels
import Verif.Model.Selection
import Mathlib.Algebra.Order.Floor.Ring
import Mathlib.Data.Rat.Floor
/-!
# Model of the time evolution of krypton parameters (`icaros/krmap_functions.py`, `icaros/lifetime_vdrift_functions.py`)

Times, drift times and energies are not NaN.  The parameters that come from fits (energies, lifetime, drift velocity, resolution) are not modelled, nor their errors (square roots).
-/
namespace Verif.TimeEvol
open Verif.Voxels (npMin npMax searchRight)
open Verif.Frame (groupBy)

/-- The columns used. -/
structure Row where
  event : Int
  time : ℚ
  x : Option ℚ
  y : Option ℚ
  dt : ℚ
  s1e : ℚ
  s2e : ℚ
  ec : Option ℚ
  ec2 : Option ℚ
deriving DecidableEq, Repr

/-- `np.arange(start, stop, step)`, in exact arithmetic. -/
def arange (start stop step : ℚ) : List ℚ := (List.range ⌈(stop - start) / step⌉.toNat).map fun i : Nat => start + i * step

/-- The number of the slice of each row (krmap_functions.py:679-682). -/
def sliceOf (seconds : ℚ) (rows : List Row) (r : Row) : Int :=
  searchRight (arange (npMin (rows.map Row.time)) (npMax (rows.map Row.time) + seconds) seconds) r.time

/-- `get_time_evol` (krmap_functions.py:651-693), for any analysis of a slice.  `np.arange` with a null step raises `ZeroDivisionError`, with NaNs (no rows) `ValueError`. -/
def timeEvol {S : Type} (f : List Row → S) (sliceHours : ℚ) (rows : List Row) : Except PyErr (List S) :=
  if rows = [] then .error .valueError
  else if sliceHours * 3600 = 0 then .error .zeroDivision
  else .ok ((groupBy (fun r => [sliceOf (sliceHours * 3600) rows r]) rows).map fun g => f g.2)

/-- `.mean()`: NaN without values. -/
def mean? (vs : List ℚ) : Option ℚ := if vs = [] then none else some (vs.sum / vs.length)

/-- The part of the row of a slice that does not come from fits: run_number, ts, nevents, rate, s2e and s1e. -/
structure Summary where
  run : Int
  ts : ℚ
  nevents : Nat
  rate : Option ℚ
  s2e : Option ℚ
  s1e : Option ℚ
deriving DecidableEq, Repr

/-- `get_time_evol_single_slice` (krmap_functions.py:533, 536, 598-608): number of events, times, average energies.  A rate with a null interval is not finite. -/
def single (run : Int) (s1DT : ℚ × ℚ) (df : List Row) : Summary :=
  ⟨run, npMin (df.map Row.time), (PMapsIO.unique (df.map Row.event)).length,
   if npMax (df.map Row.time) - npMin (df.map Row.time) = 0 then none
   else some ((PMapsIO.unique (df.map Row.event)).length / (npMax (df.map Row.time) - npMin (df.map Row.time))),
   mean? (df.map Row.s2e), mean? ((df.filter fun r => decide (s1DT.1 ≤ r.dt) && decide (r.dt < s1DT.2)).map Row.s1e)⟩

/-- `SelRegionMethod` (types/symbols.py:77-79). -/
inductive Shape where
  | circle | square
deriving DecidableEq, Repr

/-- `select_lifetime_region` (lifetime_vdrift_functions.py:13-50). -/
def region (x0 y0 : ℚ) (shape : Shape) (size : ℚ) (df : List Row) : List Row :=
  df.filter fun r =>
    match r.x, r.y with
    | some x, some y =>
      match shape with
      | .square => decide (x0 - size ≤ x) && decide (x < x0 - size + 2 * size) && (decide (y0 - size ≤ y) && decide (y < y0 - size + 2 * size))
      | .circle => decide ((x - x0) ^ 2 + (y - y0) ^ 2 ≤ size ^ 2)
    | _, _ => false

end Verif.TimeEvol
