import Verif.Model.Detsim
import Verif.Model.Core
import Mathlib.Data.Nat.Sqrt
/-!
# Model of `detsim/light_tables_c.pyx` and `detsim/light_tables.py`

The floor of a square root is computed exactly: `⌊√d / w⌋ = √⌊d / w²⌋` with the integer square root.  Reading the tables from the files, and
the warnings about the parameters, are not modelled.
-/
namespace Verif.Detsim

/-- `get_el_bins` (light_tables_c.pyx:62-66). -/
def elBins (pitch gap : ℚ) : List ℚ := Buffers.arange (pitch / 2) gap pitch

/-- `LT_SiPM` (light_tables_c.pyx:68-130): the distances of the rows of the table, its values, the positions of the sensors. -/
structure LTSipm where
  dist : List ℚ
  rows : List (List ℚ)
  pitch : ℚ
  elGap : ℚ
  ratio : ℚ
  activeR : ℚ
  sensors : List (ℚ × ℚ)

/-- `self.psf_bin` (light_tables_c.pyx:122): `IndexError` with fewer than two rows. -/
def LTSipm.psfBin (t : LTSipm) : Except PyErr ℚ :=
  match t.dist[0]?, t.dist[1]? with
  | some a, some b => .ok (b - a)
  | _, _ => .error .indexError

/-- `max(lt_df.index.values)` (light_tables_c.pyx:128). -/
def LTSipm.maxPsf (t : LTSipm) : Except PyErr ℚ := maxOf t.dist

/-- `self.values` (light_tables_c.pyx:121). -/
def LTSipm.scaled (t : LTSipm) : List (List ℚ) := t.rows.map fun r => r.map fun v => v / (elBins t.pitch t.elGap).length * t.ratio

/-- The row of a squared distance (light_tables_c.pyx:153-155): out-of-range rows are an `IndexError` (`boundscheck=True`). -/
def LTSipm.row (t : LTSipm) (w d2 : ℚ) : Except PyErr (Option (List ℚ)) :=
  match t.scaled[Nat.sqrt ⌊d2 / (w * w)⌋.toNat]? with
  | some r => .ok (some r)
  | none => .error .indexError

/-- The square of the distance to a sensor (light_tables_c.pyx:145-148). -/
def dist2 (x y : ℚ) (s : ℚ × ℚ) : ℚ := (x - s.1) * (x - s.1) + (y - s.2) * (y - s.2)

/-- `LT_SiPM.get_values_` (light_tables_c.pyx:132-156). -/
def LTSipm.getValues (t : LTSipm) (x y : ℚ) (s : Nat) : Except PyErr (Option (List ℚ)) :=
  match t.psfBin with
  | .error e => .error e
  | .ok w => match t.maxPsf with
    | .error e => .error e
    | .ok m => match t.sensors[s]? with
      | none => .ok none
      | some p =>
        if m * m < dist2 x y p then .ok none
        else if t.activeR * t.activeR ≤ x * x + y * y then .ok none
        else t.row w (dist2 x y p)

/-- `LT_PMT` (light_tables_c.pyx:177-237): the points of the table with their values per PMT. -/
structure LTPmt where
  points : List (ℚ × ℚ)
  values : List (List ℚ)
  binX : ℚ
  binY : ℚ
  ratio : ℚ
  activeR : ℚ
  npmt : Nat

/-- The bounds of the extended grid (light_tables_c.pyx:250-251). -/
def lowBound (lo R bin : ℚ) : ℚ := lo - ⌈(R - |lo|) / bin⌉ * bin
def highBound (hi R bin : ℚ) : ℚ := hi + ⌈(R - |hi|) / bin⌉ * bin

/-- The centres of the extended grid (light_tables_c.pyx:253-254). -/
def gridCentres (lo hi R bin : ℚ) : List ℚ := Buffers.arange (lowBound lo R bin) (highBound hi R bin + bin / 2) bin

/-- C's `round`: to the nearest integer, halves away from zero (light_tables_c.pyx:270-271). -/
def cround (q : ℚ) : Int := if 0 ≤ q then ⌊q + 1 / 2⌋ else ⌈q - 1 / 2⌉

/-- `griddata((xtable, ytable), column, (yy, xx), method='nearest')` (light_tables_c.pyx:256-258), at row `i` and column `j` of the grid: note that
the row runs over the centres in `y`, used as the first coordinate of the table.  `nearest` gives the position in the table of a point
nearest to a pair of coordinates. -/
def LTPmt.gridValue (t : LTPmt) (nearest : ℚ × ℚ → Nat) (xs ys : List ℚ) (i j : Nat) : Except PyErr (List ℚ) :=
  match ys[i]?, xs[j]? with
  | some y, some x => .ok ((t.values.getD (nearest (y, x)) []).map (· * t.ratio))
  | _, _ => .error .indexError

/-- `LT_PMT.get_values_` (light_tables_c.pyx:261-273); `lo`, `hi` are the extremes of the coordinates in the table.  Negative indices are an
`IndexError` (`wraparound=False`). -/
def LTPmt.getValues (t : LTPmt) (nearest : ℚ × ℚ → Nat) (loX hiX loY hiY : ℚ) (x y : ℚ) (s : Nat) : Except PyErr (Option ℚ) :=
  if t.activeR * t.activeR ≤ x * x + y * y then .ok none
  else if t.npmt ≤ s then .ok none
  else if cround ((x - lowBound loX t.activeR t.binX) / t.binX) < 0 ∨ cround ((y - lowBound loY t.activeR t.binY) / t.binY) < 0 then .error .indexError
  else match t.gridValue nearest (gridCentres loX hiX t.activeR t.binX) (gridCentres loY hiY t.activeR t.binY)
      (cround ((x - lowBound loX t.activeR t.binX) / t.binX)).toNat (cround ((y - lowBound loY t.activeR t.binY) / t.binY)).toNat with
    | .error e => .error e
    | .ok r => .ok (some (r.getD s 0))

/-! ### Light tables as functions (S1) -/

/-- `pd.cut(x, bins, include_lowest=True, labels=centres)` for one value: the label of the bin `(e_k, e_{k+1}]`, the first one closed. -/
def cutLabel (edges centres : List ℚ) (x : ℚ) : Option ℚ :=
  if edges.head? = some x then centres[0]?
  else match edges.countP fun e => decide (e < x) with
    | 0 => none
    | k + 1 => if k + 1 < edges.length then centres[k]? else none

/-- A light table with the coordinates of its points (light_tables.py:76-105). -/
structure LTFun where
  rows : List ((ℚ × ℚ × ℚ) × List ℚ)
  activeR : ℚ
  nsens : Nat

/-- `np.unique`. -/
def uniq (xs : List ℚ) : List ℚ := xs.dedup.insertionSort (· ≤ ·)

/-- The centres (light_tables.py:103-105). -/
def LTFun.xs (t : LTFun) : List ℚ := uniq (t.rows.map fun r => r.1.1)
def LTFun.ys (t : LTFun) : List ℚ := uniq (t.rows.map fun r => r.1.2.1)
def LTFun.zs (t : LTFun) : List ℚ := uniq (t.rows.map fun r => r.1.2.2)

/-- `range_x`, `range_y` (light_tables.py:109-110). -/
def extRange (c : List ℚ) (R : ℚ) : ℚ × ℚ := (min (c.headD 0) (-R), max (c.getLastD 0) R)

/-- The row of the table for three labels, zeros if there is none: `lt.reindex(indices, fill_value=0)` (light_tables.py:89-91). -/
def LTFun.lookup (t : LTFun) (a b c : Option ℚ) : List ℚ :=
  match a, b, c with
  | some x, some y, some z => match t.rows.find? fun r => decide (r.1 = (x, y, z)) with
    | some r => r.2
    | none => List.replicate t.nsens 0
  | _, _, _ => List.replicate t.nsens 0

/-- The values for one position (light_tables.py:80-92), given the edges.  `np.sqrt(xs**2 + ys**2) <= act_r` is compared through the squares, for
a radius that is not negative. -/
def LTFun.valueAt (t : LTFun) (ex ey ez : List ℚ) (p : ℚ × ℚ × ℚ) : List ℚ :=
  if p.1 * p.1 + p.2.1 * p.2.1 ≤ t.activeR * t.activeR ∧ ez.headD 0 ≤ p.2.2 ∧ p.2.2 ≤ ez.getLastD 0 then
    t.lookup (cutLabel ex t.xs p.1) (cutLabel ey t.ys p.2.1) (cutLabel ez t.zs p.2.2)
  else List.replicate t.nsens 0

/-- The function returned by `create_lighttable_function` (light_tables.py:60-116), for a table with `z`, applied to the positions of the hits. -/
def LTFun.eval (t : LTFun) (ps : List (ℚ × ℚ × ℚ)) : Except PyErr (List (List ℚ)) :=
  match Core.binedgesFromBincenters t.xs (some (extRange t.xs t.activeR)), Core.binedgesFromBincenters t.ys (some (extRange t.ys t.activeR)),
      Core.binedgesFromBincenters t.zs none with
  | .ok ex, .ok ey, .ok ez => .ok (ps.map (t.valueAt ex ey ez))
  | .error e, _, _ => .error e
  | .ok _, .error e, _ => .error e
  | .ok _, .ok _, .error e => .error e

end Verif.Detsim
