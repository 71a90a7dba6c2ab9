import Verif.Base
import Verif.Model.Core
import Verif.Model.Voxels
import Verif.Model.Buffers
/-!
# Model of the preparation of the input of the deconvolution (`invisible_cities/reco/deconv_functions.py`)

Arrays of several dimensions are given as the list of their values with the last index changing fastest (the order of
`flatten`); points as lists of coordinates.  Numbers are exact rationals.
-/
namespace Verif.DeconvInput
open Verif.Voxels (npMin npMax histBin)
open Verif.Buffers (arange)
open Verif.Core (inRange shiftToBinCenters binedgesFromBincenters)

/-- `InterpolationMethod` (symbols.py:49-53). -/
inductive Method where
  | nearest | linear | cubic | nointerpolation
deriving DecidableEq, Repr

/-- `np.finfo(np.float32).eps` (deconv_functions.py:268). -/
def eps32 : ℚ := 1 / 2 ^ 23

/-- All the combinations of one element of each list, the last one changing fastest (`np.meshgrid(..., indexing='ij')`
flattened, deconv_functions.py:280-281 and 315-316). -/
def product {α : Type} : List (List α) → List (List α)
  | [] => [[]]
  | xs :: rest => xs.flatMap fun x => (product rest).map (x :: ·)

/-- The limits of one coordinate (deconv_functions.py:269-271). -/
def extent (coord : List ℚ) (sw : ℚ) : ℚ × ℚ := (npMin coord - 3 / 2 * sw, npMax coord + 3 / 2 * sw + eps32)

/-- `ranges` (deconv_functions.py:269-271); `min` of an empty array raises `ValueError`. -/
def ranges (data : List (List ℚ)) (widths : List ℚ) : Except PyErr (List (ℚ × ℚ)) :=
  (data.zip widths).mapM fun p => if p.1 = [] then .error .valueError else .ok (extent p.1 p.2)

/-- `grid[in_range(grid, *rang)]` (deconv_functions.py:273 and 314). -/
def inside (r : ℚ × ℚ) (grid : List ℚ) : List ℚ := ((grid.zip (inRange grid (some r.1) (some r.2))).filter Prod.snd).map Prod.fst

/-- `np.arange(*rang, sw)` (deconv_functions.py:277). -/
def regular (r : ℚ × ℚ) (sw : ℚ) : Except PyErr (List ℚ) := if sw = 0 then .error .zeroDivision else .ok (arange r.1 r.2 sw)

/-- `allbins` (deconv_functions.py:272-277). -/
def allBins (m : Method) (rs : List (ℚ × ℚ)) (widths : List ℚ) (grids : List (List ℚ)) : Except PyErr (List (List ℚ)) :=
  if m = .nointerpolation then (rs.zip grids).mapM fun p => binedgesFromBincenters (inside p.1 p.2) none
  else (rs.zip widths).mapM fun p => regular p.1 p.2

/-- The coordinates of the `i`-th hit. -/
def point (data : List (List ℚ)) (i : Nat) : List ℚ := data.map fun c => c.getD i 0

/-- The bin of a point in every dimension, if it has one in all. -/
def cellOf (bins : List (List ℚ)) (p : List ℚ) : Option (List Nat) := (bins.zip p).mapM fun q => histBin q.1 q.2

/-- The cells of an array. -/
def cells (bins : List (List ℚ)) : List (List Nat) := product (bins.map fun e => List.range (e.length - 1))

/-- The content of a cell. -/
def content (bins : List (List ℚ)) (data : List (List ℚ)) (weight : List ℚ) (c : List Nat) : ℚ :=
  (((List.range weight.length).filter fun i => decide (cellOf bins (point data i) = some c)).map fun i => weight.getD i 0).sum

/-- `np.histogramdd(data, bins=allbins, density=False, weights=weight)` (deconv_functions.py:275, 278): refuses numbers
of dimensions that differ, coordinates or weights of different lengths and edges that decrease. -/
def histogramdd (bins : List (List ℚ)) (data : List (List ℚ)) (weight : List ℚ) : Except PyErr (List ℚ) :=
  if bins.length ≠ data.length then .error .valueError
  else if data.any (fun c => c.length ≠ weight.length) then .error .valueError
  else if bins.any (fun e => (e.zip e.tail).any fun p => decide (p.2 < p.1)) then .error .valueError
  else .ok ((cells bins).map (content bins data weight))

/-- `np.clip(np.nan_to_num(v), 0, None)` (deconv_functions.py:318-319); `none` is NaN (infinite values are not modelled). -/
def clip : Option ℚ → ℚ
  | none => 0
  | some v => if v < 0 then 0 else v

/-- `deconvolution_input` (deconv_functions.py:239-288) with `interpolate_signal` (:291-321): the charges and the points, in the same
order.  `griddata method points values` stands for `scipy.interpolate.griddata`: the function that interpolates (`none` is NaN). -/
def deconvolutionInput (griddata : Method → List (List ℚ) → List ℚ → Except PyErr (List ℚ → Option ℚ)) (m : Method) (widths : List ℚ) (grids : List (List ℚ))
    (data : List (List ℚ)) (weight : List ℚ) : Except PyErr (List ℚ × List (List ℚ)) :=
  (ranges data widths).bind fun rs =>
  (allBins m rs widths grids).bind fun bins =>
  (histogramdd bins data weight).bind fun hs =>
  if m = .nointerpolation then .ok (hs, product (bins.map shiftToBinCenters))
  else (griddata m (product (bins.map shiftToBinCenters)) hs).map fun f =>
    ((product ((rs.zip grids).map fun p => inside p.1 p.2)).map fun p => clip (f p), product ((rs.zip grids).map fun p => inside p.1 p.2))

end Verif.DeconvInput
