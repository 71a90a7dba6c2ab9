import Verif.Model.Deconv
import Verif.Model.DeconvInput
/-!
# Model of `deconvolve_signal` of beersheba (`cities/beersheba.py`, `reco/deconv_functions.py`): the slices of an event

Simplifications: two dimensions; a PSF without rows and an image without points are not excluded here, what SciPy does with them is not modelled; the charges of a peak whose sum is zero are divided by zero (0 here, NaN in NumPy).
-/
namespace Verif.DeconvSlice
open Verif Verif.Deconv Verif.DeconvInput
open Verif.Voxels (npMin npMax)
open Verif.PMapsIO (unique)

/-- A row of the table of PSFs. -/
structure PsfRow where
  z : ℚ
  x : ℚ
  y : ℚ
  xr : ℚ
  yr : ℚ
  factor : ℚ
deriving DecidableEq

/-- A hit of the input: the columns of `Deconv.Row` and the position of its peak. -/
structure Hit where
  row : Row
  xpeak : ℚ
  ypeak : ℚ
deriving DecidableEq

/-- The configuration. `griddata` is `scipy.interpolate.griddata`; `gauss z` is the density of the normal distribution of the diffusion up to `z` (beersheba.py:201; `scipy` refuses some covariances). -/
structure Conf where
  psfs : List PsfRow
  sipms : List (ℚ × ℚ)
  joint : Bool
  method : Method
  widths : ℚ × ℚ
  bins : ℚ × ℚ
  iterations : Nat
  iterationsG : Nat
  tol : ℚ
  satellites : Satellites
  cut : ℚ
  cutType : CutType
  griddata : Method → List (List ℚ) → List ℚ → Except PyErr (List ℚ → Option ℚ)
  gauss : ℚ → Except PyErr (ℚ × ℚ → ℚ)

/-- One axis of `det_grid` (beersheba.py:155-156). -/
def axisGrid (coords : List ℚ) (bs : ℚ) : Except PyErr (List ℚ) :=
  if coords.length = 0 then .error .valueError else regular (npMin coords + bs / 2, npMax coords - bs / 2 + eps32) bs

/-- `det_grid` (beersheba.py:155-156). -/
def detGrid (sipms : List (ℚ × ℚ)) (bins : ℚ × ℚ) : Except PyErr (List (List ℚ)) :=
  match axisGrid (sipms.map Prod.fst) bins.1 with
  | .error e => .error e
  | .ok gx => match axisGrid (sipms.map Prod.snd) bins.2 with
    | .error e => .error e
    | .ok gy => .ok [gx, gy]

/-- `find_nearest(array, values)` with an array of values (deconv_functions.py:338-341): the shapes are broadcast. -/
def nearestOf (array values : List ℚ) : Except PyErr ℚ :=
  match values with
  | [v] => findNearest array v
  | _ => if values.length = array.length then
      match argmin (List.zipWith (fun a v => |a - v|) array values) with
      | .error e => .error e
      | .ok i => .ok (array.getD i 0)
    else match array with
      | [a] => match argmin (values.map fun v => |a - v|) with
        | .error e => .error e
        | .ok i => if i = 0 then .ok a else .error .indexError
      | _ => .error .valueError

/-- The rows of the PSF of a slice (beersheba.py:189-193). -/
def selectPsf (c : Conf) (hits : List Hit) (z : ℚ) : Except PyErr (List PsfRow) :=
  match findNearest (c.psfs.map PsfRow.z) (if c.joint then z else 0) with
  | .error e => .error e
  | .ok z0 => match nearestOf (c.psfs.map PsfRow.x) (unique (hits.map Hit.xpeak)) with
    | .error e => .error e
    | .ok x0 => match nearestOf (c.psfs.map PsfRow.y) (unique (hits.map Hit.ypeak)) with
      | .error e => .error e
      | .ok y0 => .ok (c.psfs.filter fun p => p.z == z0 && p.x == x0 && p.y == y0)

/-- `values.reshape(psf.loc[:, ["xr", "yr"]].nunique().values)` (deconv_functions.py:393; beersheba.py:203-205). -/
def reshapePsf (psf : List PsfRow) (values : List ℚ) : Except PyErr Img :=
  if (unique (psf.map PsfRow.xr)).length * (unique (psf.map PsfRow.yr)).length ≠ values.length then .error .valueError
  else .ok ⟨(unique (psf.map PsfRow.xr)).length, (unique (psf.map PsfRow.yr)).length, fun i j => values.getD (i * (unique (psf.map PsfRow.yr)).length + j) 0⟩

/-- The length of an axis of the image (deconv_functions.py:272-286, 314-318): as many cells as points of the detector, with and without interpolation. -/
def axisLength (coord : List ℚ) (w : ℚ) (grid : List ℚ) : Nat := (inside (extent coord w) grid).length

/-- The image of the values given in order. -/
def toImg (h w : Nat) (values : List ℚ) : Img := ⟨h, w, fun i j => values.getD (i * w + j) 0⟩

/-- The coordinates of a slice. -/
def coords (hits : List Hit) : List (List ℚ) := [hits.map fun h => h.row.x, hits.map fun h => h.row.y]

/-- The second deconvolution of the mode `separate` (beersheba.py:200-208). -/
def second (c : Conf) (psf : List PsfRow) (z : ℚ) (im : Img) : Except PyErr Img :=
  match c.gauss z with
  | .error e => .error e
  | .ok g => match reshapePsf psf (psf.map fun p => g (p.xr, p.yr)) with
    | .error e => .error e
    | .ok k => .ok (richardsonLucy im k c.satellites c.iterationsG c.tol)

/-- The pixels of an image at its points. -/
def pixels (im : Img) (points : List (List ℚ)) : List Pixel := List.zipWith (fun e p => ⟨e, p.getD 0 0, p.getD 1 0⟩) im.values points

/-- `deconvolve` and `deconvolve_hits` (deconv_functions.py:385-402; beersheba.py:175-208), `total` being the charge of the peak (beersheba.py:226). -/
def slice (c : Conf) (grid : List (List ℚ)) (total : ℚ) (hits : List Hit) (z : ℚ) : Except PyErr (List Pixel) :=
  match selectPsf c hits z with
  | .error e => .error e
  | .ok psf => match deconvolutionInput c.griddata c.method [c.widths.1, c.widths.2] grid (coords hits) (hits.map fun h => h.row.q / total) with
    | .error e => .error e
    | .ok signal => match reshapePsf psf (psf.map PsfRow.factor) with
      | .error e => .error e
      | .ok k =>
        let im := richardsonLucy (toImg (axisLength (hits.map fun h => h.row.x) c.widths.1 (grid.getD 0 [])) (axisLength (hits.map fun h => h.row.y) c.widths.2 (grid.getD 1 [])) signal.1) k c.satellites c.iterations c.tol
        if c.joint then .ok (pixels im signal.2)
        else match second c psf z im with
          | .error e => .error e
          | .ok im' => .ok (pixels im' signal.2)

/-- The hits of a slice (beersheba.py:210, 227). -/
def sliceHits (c : Conf) (grid : List (List ℚ)) (total : ℚ) (hits : List Hit) (z : ℚ) : Except PyErr (List DHit) :=
  match slice c grid total (hits.filter fun h => h.row.z == z) z with
  | .error e => .error e
  | .ok ps => if c.cutType = .rel ∧ ps = [] then .error .valueError
    else .ok (createDf ((hits.filter fun h => h.row.z == z).map Hit.row) z ps c.cut c.cutType)

/-- A deconvolved hit of the output: the time of the event (beersheba.py:98-99) and the position of the peak. -/
structure OutHit where
  hit : DHit
  xpeak : ℚ
  ypeak : ℚ
  time : ℚ
deriving DecidableEq

/-- A peak (beersheba.py:225-231): `j` is the position of the column of the energy. -/
def peak (c : Conf) (grid : List (List ℚ)) (j : Nat) (k : Int) (hits : List Hit) : Except PyErr (List (DHit × ℚ × ℚ)) :=
  match (sortedUnique (hits.map fun h => h.row.z)).mapM (sliceHits c grid ((hits.map fun h => h.row.q).sum) hits) with
  | .error e => .error e
  | .ok slices => .ok ((distributeEnergy (slices.flatten.map fun h => { h with npeak := k }) (hits.map Hit.row) j).map fun h => (h, (hits.map Hit.xpeak).headD 0, (hits.map Hit.ypeak).headD 0))

/-- `deconvolve_signal` for an event and `event_info_adder` (beersheba.py:98-99, 212-235). -/
def event (c : Conf) (grid : List (List ℚ)) (j : Nat) (timestamp : ℚ) (hits : List Hit) : Except PyErr (List OutHit) :=
  match (Sources.groupKeys (hits.map fun h => h.row.npeak)).mapM fun k => peak c grid j k (hits.filter fun h => h.row.npeak == k) with
  | .error e => .error e
  | .ok [] => .error .valueError
  | .ok (p :: ps) => .ok ((p :: ps).flatten.map fun h => ⟨{ h.1 with e := h.1.e.map round6 }, h.2.1, h.2.2, timestamp / 1000⟩)

end Verif.DeconvSlice
