import Verif.Base
import Mathlib.Data.List.Dedup
/-!
# Model of the selection of krypton events (`icaros/selection_functions.py`)

NaN is `none`.  The limits of the diffusion band (configured functions of a column) are taken as functions of each drift time.
-/
namespace Verif.Selection

/-- The columns used (selection_functions.py:90, 146-154). -/
structure Row where
  event : Int
  time : Option ℚ
  zrms : Option ℚ
  dt : Option ℚ
  ec : Option ℚ
  s2t : Option ℚ
  r : Option ℚ
  nsipm : Option ℚ
deriving DecidableEq, Repr

/-- `df.event.nunique()` (selection_functions.py:26-27). -/
def nunique (df : List Row) : Nat := (df.map Row.event).dedup.length

/-- `eff_of_selection` (selection_functions.py:8-33): division of Python integers. -/
def eff (before after : List Row) : Except PyErr ℚ :=
  if nunique before = 0 then .error .zeroDivision else .ok (nunique after / nunique before)

/-- `in_range` for one value (core/core_functions.py:78-80): comparisons with NaN are false. -/
def inside (v lo hi : Option ℚ) : Bool :=
  match v, lo, hi with
  | some v, some lo, some hi => decide (lo ≤ v) && decide (v < hi)
  | _, _, _ => false

/-- `select_var_inrange` (selection_functions.py:36-66); the limits may depend on the row. -/
def cut (col low high : Row → Option ℚ) (df : List Row) : Except PyErr (List Row × ℚ) := do
  let sel := df.filter fun r => inside (col r) (low r) (high r)
  let e ← eff df sel
  return (sel, e)

/-- Number of times that are not NaN in the rows of an event, `groupby('event').time.count()` (selection_functions.py:90). -/
def countTime (df : List Row) (event : Int) : Nat := (df.filter fun r => decide (r.event = event) && r.time.isSome).length

/-- `select_1S1_1S2` (selection_functions.py:69-96). -/
def cutSingle (df : List Row) : Except PyErr (List Row × ℚ) := do
  let events := ((df.map Row.event).dedup).filter fun e => decide (countTime df e = 1)
  let sel := df.filter fun r => decide (r.event ∈ events)
  let e ← eff df sel
  return (sel, e)

/-- The arguments of `apply_selections` (selection_functions.py:99-110). -/
structure Cuts where
  bandLow : ℚ → ℚ
  bandUpp : ℚ → ℚ
  xraysLow : ℚ
  xraysHigh : ℚ
  s2tLow : ℚ
  s2tHigh : ℚ
  rMax : ℚ
  dtLow : ℚ
  dtHigh : ℚ
  nsipmLow : ℚ
  nsipmHigh : ℚ

/-- The table of efficiencies (selection_functions.py:158-166). -/
structure Effs where
  band : ℚ
  xrays : ℚ
  single : ℚ
  s2t : ℚ
  rmax : ℚ
  dt : ℚ
  nsipm : ℚ
  total : ℚ
deriving DecidableEq, Repr

/-- `apply_selections` (selection_functions.py:99-170).  The column Zrms2 added to the table given (line 146) is not modelled. -/
def applySelections (c : Cuts) (kdst : List Row) : Except PyErr (List Row × Effs) := do
  let (df, eBand) ← cut (fun r => r.zrms.map (· ^ 2)) (fun r => r.dt.map c.bandLow) (fun r => r.dt.map c.bandUpp) kdst
  let (df, eXrays) ← cut Row.ec (fun _ => some c.xraysLow) (fun _ => some c.xraysHigh) df
  let (df, eS2t) ← cut Row.s2t (fun _ => some c.s2tLow) (fun _ => some c.s2tHigh) df
  let (df, eSingle) ← cutSingle df
  let (df, eR) ← cut Row.r (fun _ => some 0) (fun _ => some c.rMax) df
  let (df, eDt) ← cut Row.dt (fun _ => some c.dtLow) (fun _ => some c.dtHigh) df
  let (df, eN) ← cut Row.nsipm (fun _ => some c.nsipmLow) (fun _ => some c.nsipmHigh) df
  let eTotal ← eff kdst df
  return (df, ⟨eBand, eXrays, eSingle, eS2t, eR, eDt, eN, eTotal⟩)

end Verif.Selection
