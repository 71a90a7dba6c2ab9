import Verif.Model.Core
import Verif.Model.Voxels
import Verif.Model.Wfm
/-!
# Model of the corrections with maps (`reco/corrections.py`)

NaN and infinities are `none`.  The exponential is a parameter.
-/
namespace Verif.Corrections
open Verif.Voxels (npMax linspace searchRight)
open Verif.Core (average shiftToBinCenters)

/-- `mapinfo`: limits and number of bins. -/
structure Info where
  xmin : ℚ
  xmax : ℚ
  ymin : ℚ
  ymax : ℚ
  nx : Nat
  ny : Nat
deriving DecidableEq, Repr

/-- `map_df.values`: the rows are the bins in y. -/
abbrev Table := List (List (Option ℚ))

/-- `in_range` for one value (core/core_functions.py:78-80). -/
def within (v lo hi : ℚ) : Bool := decide (lo ≤ v) && decide (v < hi)

/-- `get_maps_coefficient` for one position (corrections.py:94-105, 205-208). -/
def coefficient (info : Info) (values : Table) (x y : ℚ) : Except PyErr (Option ℚ) :=
  if within x info.xmin info.xmax && within y info.ymin info.ymax then
    match values[searchRight (linspace info.ymin info.ymax info.ny) y - 1]? with
    | none => .error .indexError
    | some row =>
      match row[searchRight (linspace info.xmin info.xmax info.nx) x - 1]? with
      | none => .error .indexError
      | some v => .ok v
  else .ok none

/-- `np.interp` from the point before, for increasing abscissas. -/
def interpFrom (x : ℚ) : List (ℚ × ℚ) → ℚ
  | [] => 0
  | [(_, fa)] => fa
  | (a, fa) :: (b, fb) :: rest => if x < b then (fb - fa) / (b - a) * (x - a) + fa else interpFrom x ((b, fb) :: rest)

/-- `np.interp(x, xp, fp)`: constant outside; `ValueError` without points or with different lengths. -/
def interp (x : ℚ) (xp fp : List ℚ) : Except PyErr ℚ :=
  if xp.length ≠ fp.length then .error .valueError
  else match xp.zip fp with
    | [] => .error .valueError
    | (a, fa) :: rest => .ok (if x < a then fa else interpFrom x ((a, fa) :: rest))

/-- The columns of the time evolution (corrections.py:323-331). -/
structure Evol where
  ts : List ℚ
  e0 : List ℚ
  e0u : List ℚ
  lt : List ℚ
  ltu : List ℚ
deriving DecidableEq, Repr

/-- `time_coefs_corr` for one time (corrections.py:146-174); the uncertainties are not null. -/
def timeFactor (t : ℚ) (ts par parU : List ℚ) : Except PyErr (Option ℚ) := do
  let mean ← average par (parU.map fun u => 1 / u)
  let p ← interp t ts par
  return if mean = 0 then none else some (p / mean)

/-- `NormStrategy` (types/symbols.py:102-108). -/
inductive Strategy where
  | mean | median | max | kr | region | custom
deriving DecidableEq, Repr

/-- `norm_options`: `xrange` and `yrange`, `origin` and `radius`, `value` (corrections.py:244-268). -/
structure Options where
  rect : Option ((ℚ × ℚ) × ℚ × ℚ) := none
  disc : Option ((ℚ × ℚ) × ℚ) := none
  value : Option ℚ := none
deriving DecidableEq, Repr

/-- Selection with a boolean array. -/
def mask {α : Type} (m : List Bool) (xs : List α) : List α := ((xs.zip m).filter Prod.snd).map Prod.fst

/-- `.mean()`, NaN without values. -/
def mean? (vs : List ℚ) : Option ℚ := if vs = [] then none else some (vs.sum / vs.length)

/-- `np.median`: NaN without values or with a NaN. -/
def npMedian (vs : List (Option ℚ)) : Option ℚ := if vs = [] ∨ none ∈ vs then none else some (Wfm.median (vs.filterMap id))

/-- The centres of the bins (corrections.py:205-208, 243). -/
def centres (lo hi : ℚ) (n : Nat) : List ℚ := shiftToBinCenters (linspace lo hi n)

/-- The table has a value for each bin. -/
def fits (info : Info) (values : Table) : Bool := decide (values.length = info.ny) && values.all fun row => decide (row.length = info.nx)

/-- `map_e0.e0.loc[sely, selx]` (corrections.py:245-247). -/
def selectRect (info : Info) (values : Table) (xr yr : ℚ × ℚ) : Table :=
  (mask ((centres info.ymin info.ymax info.ny).map fun y => within y yr.1 yr.2) values).map fun row => mask ((centres info.xmin info.xmax info.nx).map fun x => within x xr.1 xr.2) row

/-- `map_e0.e0.values[sel]` (corrections.py:249-252): in the order of the rows. -/
def selectDisc (info : Info) (values : Table) (origin : ℚ × ℚ) (radius : ℚ) : List (Option ℚ) :=
  (((centres info.ymin info.ymax info.ny).zip values).map fun p =>
    mask ((centres info.xmin info.xmax info.nx).map fun x => within ((x - origin.1) ^ 2 + (p.1 - origin.2) ^ 2) 0 (radius ^ 2)) p.2).flatten

/-- `get_normalization_factor` (corrections.py:211-275). A boolean selection of another shape raises `IndexError`. -/
def normalization (keV : ℚ) (info : Info) (values : Table) (s : Strategy) (o : Options) : Except PyErr (Option ℚ) :=
  match s with
  | .max => .ok (if values.flatten.filterMap id = [] then none else some (npMax (values.flatten.filterMap id)))
  | .mean => .ok (mean? (values.flatten.filterMap id))
  | .median => .ok (npMedian ((values.flatten.filterMap id).map some))
  | .kr => .ok (some (415575 / 10000 * keV))
  | .region =>
    match o.rect, o.disc with
    | some r, _ =>
      if !fits info values then .error .indexError
      else if selectRect info values r.1 r.2 = [] then .error .valueError
      else .ok (npMedian (selectRect info values r.1 r.2).flatten)
    | none, some d =>
      if !fits info values then .error .indexError
      else if selectDisc info values d.1 d.2 = [] then .error .valueError
      else .ok (npMedian (selectDisc info values d.1 d.2))
    | none, none => .error .valueError
  | .custom => match o.value with
    | none => .error .valueError
    | some v => .ok (some v)

/-- Division: not finite if the divisor is null. -/
def fdiv (a b : Option ℚ) : Option ℚ :=
  match a, b with
  | some x, some y => if y = 0 then none else some (x / y)
  | _, _ => none

/-- Product. -/
def fmul (a b : Option ℚ) : Option ℚ :=
  match a, b with
  | some x, some y => some (x * y)
  | _, _ => none

/-- A hit: x, y, z and time. -/
structure Point where
  x : ℚ
  y : ℚ
  z : ℚ
  t : ℚ
deriving DecidableEq, Repr

/-- `e0evol_vs_t` (corrections.py:323-337): 1 without time evolution. -/
def e0Factor (evol : Option Evol) (t : ℚ) : Except PyErr (Option ℚ) :=
  match evol with
  | none => .ok (some 1)
  | some ev => timeFactor t ev.ts ev.e0 ev.e0u

/-- `ltevol_vs_t` (corrections.py:323-337). -/
def ltFactor (evol : Option Evol) (t : ℚ) : Except PyErr (Option ℚ) :=
  match evol with
  | none => .ok (some 1)
  | some ev => timeFactor t ev.ts ev.lt ev.ltu

/-- `total_correction_factor` for one hit (corrections.py:339-346); a lifetime that is null is taken as not finite. -/
def total (exp : ℚ → ℚ) (norm : Option ℚ) (info0 : Info) (e0 : Table) (infoL : Info) (lt : Table) (evol : Option Evol) (p : Point) : Except PyErr (Option ℚ) := do
  let c0 ← coefficient info0 e0 p.x p.y
  let f0 ← e0Factor evol p.t
  let cL ← coefficient infoL lt p.x p.y
  let fL ← ltFactor evol p.t
  return fmul (fmul (fdiv (some 1) (fmul c0 f0)) ((fdiv (some p.z) (fmul cL fL)).map exp)) norm

/-- `apply_all_correction_single_maps` (corrections.py:278-348) and the call of the function given (without hits the errors of the time evolution are not raised here).  `table`: the time evolution of the third map, if
there is a map and it has it. -/
def applyAll (exp : ℚ → ℚ) (keV : ℚ) (info0 : Info) (e0 : Table) (infoL : Info) (lt : Table) (table : Option Evol) (applyTemp : Bool) (s : Strategy) (o : Options) (pts : List Point) :
    Except PyErr (List (Option ℚ)) :=
  match normalization keV info0 e0 s o with
  | .error e => .error e
  | .ok norm =>
    if applyTemp = true ∧ table = none then .error (.other "TimeEvolutionTableMissing")
    else pts.mapM (total exp norm info0 e0 infoL lt (if applyTemp then table else none))

/-- `get_df_to_z_converter` (corrections.py:177-202) and the call of the function given. -/
def toZ (dvs : Option (List ℚ)) (dt : ℚ) : Except PyErr (Option ℚ) :=
  match dvs with
  | none => .error (.other "TimeEvolutionTableMissing")
  | some dvs => .ok (fmul (some dt) (mean? dvs))

end Verif.Corrections
