import Verif.Model.Voxels
import Verif.Model.Wfm
import Verif.Model.Psf
import Verif.Base
/-!
# Model of the application of krypton maps (`icaros/correction_functions.py`, `hits_corrector` of `cities/components.py`)

NaN and infinities are `none`.  The nearest neighbour search of scipy is a parameter (`pick`), because the choice between bins at the same distance is not specified.
-/
namespace Verif.KrApply
open Verif.Psf (within)
open Verif.Voxels (npMax)

/-- The columns of the map that are used (correction_functions.py:34-35, 57-58, 131, 135). -/
structure Bin where
  k : Int
  dt : ℚ
  x : ℚ
  y : ℚ
  mu : Option ℚ
deriving DecidableEq, Repr

/-- `NormMethod` (types/symbols.py:89-98). -/
inductive Method where
  | maximum | meanChamber | medianChamber | meanAnode | medianAnode | meanRegionChamber | medianRegionChamber | meanRegionAnode | medianRegionAnode
deriving DecidableEq, Repr

/-- `xy_params`: x_low, x_high, y_low, y_high. -/
structure Region where
  xlow : ℚ
  xhigh : ℚ
  ylow : ℚ
  yhigh : ℚ
deriving DecidableEq, Repr

/-- `krmap.dropna(subset=['mu'])` (correction_functions.py:34, 129-130). -/
def valid (krmap : List Bin) : List Bin := krmap.filter fun b => b.mu.isSome

/-- `krmap.mu` of valid bins. -/
def mus (bins : List Bin) : List ℚ := bins.filterMap Bin.mu

/-- `.mean()` of a series: NaN without values. -/
def mean? (vs : List ℚ) : Option ℚ := if vs = [] then none else some (vs.sum / vs.length)

/-- `.median()`. -/
def median? (vs : List ℚ) : Option ℚ := if vs = [] then none else some (Wfm.median vs)

/-- `.max()`. -/
def max? (vs : List ℚ) : Option ℚ := if vs = [] then none else some (npMax vs)

/-- `krmap[krmap.k == 0]` (correction_functions.py:35, 71). -/
def anode (bins : List Bin) : List Bin := bins.filter fun b => decide (b.k = 0)

/-- `krmap[mask_region]` (correction_functions.py:57-61). -/
def inRegion (r : Region) (bins : List Bin) : List Bin := bins.filter fun b => within b.x r.xlow r.xhigh && within b.y r.ylow r.yhigh

/-- `normalization` (correction_functions.py:15-81).  Subscripting `xy_params=None` raises `TypeError`; dictionaries without some of the keys are not modelled. -/
def normalization (krmap : List Bin) (m : Method) (xy : Option Region) : Except PyErr (Option ℚ) :=
  match m, xy with
  | .maximum, _ => .ok (max? (mus (valid krmap)))
  | .meanChamber, _ => .ok (mean? (mus (valid krmap)))
  | .medianChamber, _ => .ok (median? (mus (valid krmap)))
  | .meanAnode, _ => .ok (mean? (mus (anode (valid krmap))))
  | .medianAnode, _ => .ok (median? (mus (anode (valid krmap))))
  | _, none => .error .typeError
  | .meanRegionChamber, some r => .ok (mean? (mus (inRegion r (valid krmap))))
  | .medianRegionChamber, some r => .ok (median? (mus (inRegion r (valid krmap))))
  | .meanRegionAnode, some r => .ok (mean? (mus (anode (inRegion r (valid krmap)))))
  | .medianRegionAnode, some r => .ok (median? (mus (anode (inRegion r (valid krmap)))))

/-- A point with its energy: dt, x, y and E. -/
structure Hit where
  dt : ℚ
  x : ℚ
  y : ℚ
  e : ℚ
deriving DecidableEq, Repr

/-- `krmap['dt x y'.split()].values` (correction_functions.py:131). -/
def Bin.point (b : Bin) : ℚ × ℚ × ℚ := (b.dt, b.x, b.y)

/-- Division of floats: `none` if it is not finite. -/
def fdiv (a : Option ℚ) (b : Option ℚ) : Option ℚ :=
  match a, b with
  | some x, some y => if y = 0 then none else some (x / y)
  | _, _ => none

/-- Product of floats. -/
def fmul (a b : Option ℚ) : Option ℚ :=
  match a, b with
  | some x, some y => some (x * y)
  | _, _ => none

/-- The corrected energy of one point (correction_functions.py:135-140). -/
def correctOne (pick : List (ℚ × ℚ × ℚ) → ℚ × ℚ × ℚ → Nat) (bins : List Bin) (norm : Option ℚ) (keV : ℚ) (unit : Option ℚ) (h : Hit) : Option ℚ :=
  match unit with
  | none => fmul (some h.e) (fdiv norm ((bins[pick (bins.map Bin.point) (h.dt, h.x, h.y)]?).bind Bin.mu))
  | some u => fdiv (fmul (fdiv (fmul (some h.e) (fdiv norm ((bins[pick (bins.map Bin.point) (h.dt, h.x, h.y)]?).bind Bin.mu))) norm) (some (4155 / 100 * keV))) (some u)

/-- `apply_3Dmap` (correction_functions.py:84-142); the result for a map without valid bins is not modelled (any error). -/
def apply3D (pick : List (ℚ × ℚ × ℚ) → ℚ × ℚ × ℚ → Nat) (keV : ℚ) (krmap : List Bin) (m : Method) (xy : Option Region) (unit : Option ℚ) (hits : List Hit) : Except PyErr (List (Option ℚ)) :=
  match normalization (valid krmap) m xy with
  | .error e => .error e
  | .ok norm => if valid krmap = [] then .error (.other "griddata") else .ok (hits.map (correctOne pick (valid krmap) norm keV unit))

/-- A row of the table of hits: the columns that `hits_corrector` reads and writes (components.py:1763-1774). -/
structure HitRow where
  x : ℚ
  y : ℚ
  z : ℚ
  e : ℚ
  ec : Option ℚ
deriving DecidableEq, Repr

/-- `apply_correctionmap_inplace_hits(hits, ..., 'Ec', units.MeV)` (correction_functions.py:184-220, components.py:1764): the table given is modified. -/
def correctRows (pick : List (ℚ × ℚ × ℚ) → ℚ × ℚ × ℚ → Nat) (keV mev : ℚ) (krmap : List Bin) (m : Method) (xy : Option Region) (rows : List HitRow) : Except PyErr (List HitRow) :=
  match apply3D pick keV krmap m xy (some mev) (rows.map fun r => ⟨r.z, r.x, r.y, r.e⟩) with
  | .error e => .error e
  | .ok ecs => .ok ((rows.zip ecs).map fun p => { p.1 with ec := p.2 })

/-- The function given by `hits_corrector` (components.py:1761-1776): the rows of the input after the call, and the result.  `dvs`: the column `dv` of the time evolution.  With `apply_temp` the
attribute `ts` of the map, that does not exist (ic_containers.py:32), is read. -/
def correctHits (pick : List (ℚ × ℚ × ℚ) → ℚ × ℚ × ℚ → Nat) (keV mev : ℚ) (krmap : List Bin) (dvs : List ℚ) (applyTemp : Bool) (m : Method) (xy : Option Region) (applyZ : Bool) (rows : List HitRow) :
    List HitRow × Except PyErr (List HitRow) :=
  match correctRows pick keV mev krmap m xy rows with
  | .error e => (rows, .error e)
  | .ok out =>
    if applyTemp then
      (if applyZ then out.map (fun r => { r with z := r.z * Wfm.median dvs }) else out, .error .attributeError)
    else (if applyZ then out.map (fun r => { r with z := r.z * Wfm.median dvs }) else out, .ok (if applyZ then out.map (fun r => { r with z := r.z * Wfm.median dvs }) else out))

end Verif.KrApply
