import Verif.Model.Frame
import Verif.Model.Voxels
import Verif.Model.Wfm
import Verif.Model.Psf
/-!
# Model of the production of krypton maps (`icaros/krmap_functions.py`)

NaN is `none`.  The function fitted in each bin is a parameter.
-/
namespace Verif.KrMap
open Verif.Frame
open Verif.Voxels (linspace searchRight npMin npMax)
open Verif.Psf (within)

/-- The columns of the kdst that are used (krmap_functions.py:224, 399). -/
structure Evt where
  x : ℚ
  y : ℚ
  dt : ℚ
  s2e : ℚ
  time : ℚ
deriving DecidableEq, Repr

/-- The row given by the fit functions (krmap_functions.py:115-121, 158-164, 169-175): 'nevents', 'mu', 'sigma', 'mu_error', 'sigma_error'. -/
structure Fit where
  nevents : Option ℚ
  mu : Option ℚ
  sigma : Option ℚ
  muError : Option ℚ
  sigmaError : Option ℚ
deriving DecidableEq, Repr

/-- The arguments of `compute_3D_map` (krmap_functions.py:349-355). -/
structure Config where
  xy : ℚ × ℚ
  dt : ℚ × ℚ
  nxy : Nat
  ndt : Nat
  s2e : ℚ × ℚ

/-- A row of the map. -/
structure Row where
  k : Int
  i : Int
  j : Int
  fit : Fit
deriving DecidableEq, Repr

/-- `groupby(['k', 'i', 'j'])` (krmap_functions.py:243, 273). -/
def Row.key (r : Row) : List Int := [r.k, r.i, r.j]

/-- `create_empty_map` (krmap_functions.py:77-90). -/
def emptyMap (c : Config) : List Row :=
  (List.range c.ndt).flatMap fun k : Nat => (List.range c.nxy).flatMap fun i : Nat => (List.range c.nxy).map fun j : Nat => ⟨k, i, j, ⟨none, none, none, none, none⟩⟩

/-- The events of the ranges (krmap_functions.py:226-231). -/
def selected (c : Config) (evts : List Evt) : List Evt :=
  evts.filter fun e => within e.x c.xy.1 c.xy.2 && within e.y c.xy.1 c.xy.2 && within e.dt c.dt.1 c.dt.2 && within e.s2e c.s2e.1 c.s2e.2

/-- The indices of an event (krmap_functions.py:235-243), in the order of the groups. -/
def bin (c : Config) (e : Evt) : List Int :=
  [(searchRight (linspace c.dt.1 c.dt.2 c.ndt) e.dt : Int) - 1, (searchRight (linspace c.xy.1 c.xy.2 c.nxy) e.x : Int) - 1,
   (searchRight (linspace c.xy.1 c.xy.2 c.nxy) e.y : Int) - 1]

/-- One row of the fitted map (krmap_functions.py:243-246). -/
def fitRow (f : List ℚ → Fit) (g : List Int × List Evt) : Option Row :=
  match g.1 with
  | [k, i, j] => some ⟨k, i, j, f (g.2.map Evt.s2e)⟩
  | _ => none

/-- `fit_map` (krmap_functions.py:185-248). -/
def fitMap (c : Config) (f : List ℚ → Fit) (evts : List Evt) : List Row := (groupBy (bin c) (selected c evts)).filterMap (fitRow f)

/-- `.first()` of a group (krmap_functions.py:273): the first value that is not NaN in each column. -/
def firstFit (fits : List Fit) : Fit :=
  ⟨firstValid (fits.map Fit.nevents), firstValid (fits.map Fit.mu), firstValid (fits.map Fit.sigma), firstValid (fits.map Fit.muError), firstValid (fits.map Fit.sigmaError)⟩

/-- One row of the merged map (krmap_functions.py:273). -/
def mergeRow (g : List Int × List Row) : Option Row :=
  match g.1 with
  | [k, i, j] => some ⟨k, i, j, firstFit (g.2.map Row.fit)⟩
  | _ => none

/-- `merge_maps` (krmap_functions.py:251-275). -/
def mergeMaps (nans map3D : List Row) : List Row := (groupBy Row.key (map3D ++ nans)).filterMap mergeRow

/-- A row of the final map (krmap_functions.py:308-311, 402). -/
structure Out where
  k : Int
  i : Int
  j : Int
  fit : Fit
  dt : ℚ
  x : ℚ
  y : ℚ
  density : Option ℚ
deriving DecidableEq, Repr

/-- `include_coordinates` (krmap_functions.py:305-312) and the density (krmap_functions.py:390-391, 398-402); NaN without events or with a null volume or time (where it is not finite). -/
def withCoordinates (c : Config) (hours : ℚ) (r : Row) : Out :=
  ⟨r.k, r.i, r.j, r.fit, c.dt.1 + (1 / 2 + r.k) * ((c.dt.2 - c.dt.1) / c.ndt), c.xy.1 + (1 / 2 + r.i) * ((c.xy.2 - c.xy.1) / c.nxy),
    c.xy.1 + (1 / 2 + r.j) * ((c.xy.2 - c.xy.1) / c.nxy),
    if (c.dt.2 - c.dt.1) / c.ndt * ((c.xy.2 - c.xy.1) / c.nxy) * ((c.xy.2 - c.xy.1) / c.nxy) * (1 / 1000) = 0 ∨ hours = 0 then none
    else r.fit.nevents.map fun n => n / ((c.dt.2 - c.dt.1) / c.ndt * ((c.xy.2 - c.xy.1) / c.nxy) * ((c.xy.2 - c.xy.1) / c.nxy) * (1 / 1000)) / hours⟩

/-! ### Regularization -/

/-- Position of a bin in the flat array (`reshape` and `flatten` in C order, krmap_functions.py:335, 346). -/
def flat (ni nj k i j : Nat) : Nat := (k * ni + i) * nj + j

/-- `mu[k,i,j]`. -/
def value (ni nj : Nat) (mu : List (Option ℚ)) (k i j : Nat) : Option ℚ := (mu[flat ni nj k i j]?).join

/-- The eight neighbours of a bin that is not in the border (krmap_functions.py:341). -/
def around (i j : Nat) : List (Nat × Nat) :=
  [(i - 1, j - 1), (i - 1, j), (i - 1, j + 1), (i, j - 1), (i, j + 1), (i + 1, j - 1), (i + 1, j), (i + 1, j + 1)]

/-- `vals` (krmap_functions.py:341). -/
def vals (ni nj : Nat) (mu : List (Option ℚ)) (k i j : Nat) : List (Option ℚ) := (around i j).map fun p => value ni nj mu k p.1 p.2

/-- `np.nanmean`. -/
def nanmean (vs : List (Option ℚ)) : ℚ := (vs.filterMap id).sum / (vs.filterMap id).length

/-- One iteration (krmap_functions.py:340-344).  The assignment to a read-only array raises `ValueError`. -/
def fillOne (writable : Bool) (ni nj : Nat) (mu : List (Option ℚ)) (p : Nat × Nat × Nat) : Except PyErr (List (Option ℚ)) :=
  if (value ni nj mu p.1 p.2.1 p.2.2).isSome then .ok mu
  else if 3 < (vals ni nj mu p.1 p.2.1 p.2.2).countP Option.isNone then .ok mu
  else if writable then .ok (mu.set (flat ni nj p.1 p.2.1 p.2.2) (some (nanmean (vals ni nj mu p.1 p.2.1 p.2.2))))
  else .error .valueError

/-- The bins that are not in the border, in the order of the loops (krmap_functions.py:337-339). -/
def interior (nk ni nj : Nat) : List (Nat × Nat × Nat) :=
  (List.range nk).flatMap fun k => ((List.range (ni - 1)).drop 1).flatMap fun i => ((List.range (nj - 1)).drop 1).map fun j => (k, i, j)

/-- `regularize_map` on the column `mu` (krmap_functions.py:334-346).  `writable`: whether `krmap.mu.values` can be written; in pandas 3 (the version of manage.sh) it is a read-only view. -/
def regularize (writable : Bool) (nk ni nj : Nat) (mu : List (Option ℚ)) : Except PyErr (List (Option ℚ)) :=
  if mu.length ≠ nk * ni * nj then .error .valueError else (interior nk ni nj).foldlM (fillOne writable ni nj) mu

/-! ### The whole map -/

/-- The map before the regularization (krmap_functions.py:390-402). -/
def fullMap (c : Config) (f : List ℚ → Fit) (evts : List Evt) : List Out :=
  (mergeMaps (emptyMap c) (fitMap c f evts)).map (withCoordinates c ((npMax (evts.map Evt.time) - npMin (evts.map Evt.time)) / 3600))

/-- `compute_3D_map` (krmap_functions.py:349-405).  The extremes of no times raise `ValueError`, no bins `ZeroDivisionError`. -/
def computeMap (writable : Bool) (c : Config) (f : List ℚ → Fit) (evts : List Evt) : Except PyErr (List Out) :=
  if c.ndt = 0 ∨ c.nxy = 0 then .error .zeroDivision
  else if evts = [] then .error .valueError
  else match regularize writable c.ndt c.nxy c.nxy ((fullMap c f evts).map fun r => r.fit.mu) with
    | .error e => .error e
    | .ok mu => .ok (((fullMap c f evts).zip mu).map fun p => { p.1 with fit := { p.1.fit with mu := p.2 } })

/-! ### The fits -/

/-- 'mu' of `get_median` (krmap_functions.py:108-113). -/
def medianMu (vals : List ℚ) : Option ℚ := if vals.length < 5 then none else some (Wfm.median vals)

/-- 'mu' of `gaussian_fit` (krmap_functions.py:147-175); the fit is an oracle that may fail. -/
def gaussianMu (fit : List ℚ → Option ℚ) (minEvents : Nat) (vals : List ℚ) : Option ℚ :=
  if vals.length < minEvents then medianMu vals
  else match fit vals with
    | none => none
    | some m => if within m (1 / 2 * Wfm.median vals) (3 / 2 * Wfm.median vals) then some m else medianMu vals

end Verif.KrMap
